import Verif.Model.Shell
import Verif.Props.C47_NameLookup

/-! C56: the file name that the example shell shows for a file in a directory. -/

namespace NT

open Spec

variable {V : View}

/-- The attribute at `off` is a `$FILE_NAME` that decodes to `n` and names the directory `parent`. -/
def NamedIn (parent : Nat) (file : NFile) (off : Nat) (n : FileName) : Prop :=
  field file.recordData off 4 = 0x30 ∧ nameAt file off = .ok n ∧ field (valueAt file off) 0 8 % 2 ^ 48 = parent

/-- Preference of the namespaces: Win32, then Win32 and DOS, then the others. -/
def nsRank (file : NFile) (off : Nat) : Nat :=
  match field (valueAt file off) 65 1 with
  | 1 => 0
  | 3 => 1
  | _ => 2

/-- `n` is the most preferred name in the directory, and the first one among equally preferred ones. -/
def BestNamed (V : View) (steps : List Step) (parent : Nat) (n : FileName) : Prop :=
  ∃ pre s post file off, steps = pre ++ s :: post ∧ s.At V file off ∧ NamedIn parent file off n ∧
    (∀ p ∈ pre, ∀ f o m, p.At V f o → NamedIn parent f o m → nsRank file off < nsRank f o) ∧
    (∀ p ∈ post, ∀ f o m, p.At V f o → NamedIn parent f o m → nsRank file off ≤ nsRank f o)

/-- Every attribute can be loaded, is of a known type, and decodes if it is a file name; and the
iteration ends properly. -/
def CleanNames (V : View) (steps : List Step) (r : Res (Option AttrItem)) : Prop :=
  r = .ok none ∧ ∀ p ∈ steps, ∃ f o, p.At V f o ∧ field f.recordData o 4 ∈ typeCodes ∧
    (field f.recordData o 4 = 0x30 → ∃ n, nameAt f o = .ok n)

theorem NameMiss.not_fits {ns : Option Namespace} {parent : Option Nat} {f : NFile} {o : Nat}
    (h : NameMiss ns parent f o) (h30 : field f.recordData o 4 = 0x30) :
    ¬ NameFits (valueAt f o) ns parent := (h.2 h30).2

theorem fits_of_named {ns : Option Namespace} {parent : Nat} {f : NFile} {o : Nat} {m : FileName}
    (h : NamedIn parent f o m) (hns : ∀ x, ns = some x → field (valueAt f o) 65 1 = nsCode x) :
    NameFits (valueAt f o) ns (some parent) :=
  ⟨hns, by rintro _ ⟨⟩; exact h.2.2⟩

theorem nsRank_le (f : NFile) (o : Nat) : nsRank f o ≤ 2 := by
  unfold nsRank; split <;> omega

theorem nsRank_zero {f : NFile} {o : Nat} : nsRank f o = 0 ↔ field (valueAt f o) 65 1 = 1 := by
  unfold nsRank
  split <;> simp_all

theorem nsRank_one {f : NFile} {o : Nat} : nsRank f o = 1 ↔ field (valueAt f o) 65 1 = 3 := by
  unfold nsRank
  split <;> simp_all

/-- Everything is passed over: then there is no such name in the directory, and all is clean. -/
theorem clean_of_misses {steps : List Step} {r : Res (Option AttrItem)} {ns : Option Namespace}
    {parent : Option Nat} (hr : r = .ok none)
    (h : ∀ p ∈ steps, ∃ f o, p.At V f o ∧ NameMiss ns parent f o) : CleanNames V steps r := by
  refine ⟨hr, fun p hp => ?_⟩
  obtain ⟨f, o, h1, h2, h3⟩ := h p hp
  exact ⟨f, o, h1, h2, fun h30 => (h3 h30).1⟩

/-- In a clean file, an attribute is passed over iff it is no name that fits. -/
theorem miss_of_clean {steps : List Step} {r : Res (Option AttrItem)} (hc : CleanNames V steps r)
    {ns : Option Namespace} {parent : Nat} {p : Step} (hp : p ∈ steps)
    (h : ∀ f o m, p.At V f o → NamedIn parent f o m → ¬ NameFits (valueAt f o) ns (some parent)) :
    ∃ f o, p.At V f o ∧ NameMiss ns (some parent) f o := by
  obtain ⟨f, o, h1, h2, h3⟩ := hc.2 p hp
  refine ⟨f, o, h1, h2, fun h30 => ⟨h3 h30, fun hf => ?_⟩⟩
  obtain ⟨n, hn⟩ := h3 h30
  exact h f o n h1 ⟨h30, hn, hf.2 _ rfl⟩ hf

/-- **C56**: `best_file_name`, for every sequence of flattened attributes whose `$FILE_NAME` attributes
are resident with values inside them. Whatever it returns is the first most preferred name that the file
has in the directory. If all attributes can be loaded and decoded, that name is returned, and the file is
reported to have none exactly if there is none. It fails exactly if the lookup of a Win32 name fails. -/
theorem C56_best {steps : List Step} {r : Res (Option AttrItem)} (h : Flattened V steps r)
    (hpl : ∀ s ∈ steps, ∀ file off, s.At V file off → field file.recordData off 4 = 0x30 →
      Placed file off)
    (parent : Nat) (fuel : Nat) (hfuel : steps.length < fuel) (d : Dev) (hd : d.Ok V.img) :
    ∃ q d', bestFileName V.base parent fuel d = (q, d') ∧ d'.Ok V.img ∧
      (∀ n, q = .ok (.ok n) → BestNamed V steps parent n) ∧
      (∀ n, CleanNames V steps r → BestNamed V steps parent n → q = .ok (.ok n)) ∧
      (∀ m, q = .ok (.error m) ↔ m = .noFileName V.base.fileRecordNumber ∧ CleanNames V steps r ∧
        ∀ p ∈ steps, ∀ f o n, p.At V f o → ¬ NamedIn parent f o n) ∧
      (∀ x, q = .err x ↔
        (∃ pre s post, steps = pre ++ s :: post ∧
          (∀ p ∈ pre, ∃ f o, p.At V f o ∧ NameMiss (some .win32) (some parent) f o) ∧
          (s.Fails V x ∨ ∃ file off, s.At V file off ∧ NameAttrBad file off x)) ∨
        (r = .err x ∧ ∀ p ∈ steps, ∃ f o, p.At V f o ∧ NameMiss (some .win32) (some parent) f o)) ∧
      ((∃ o, q = .ok o) ∨ ∃ x, q = .err x) := by
  have uniq : ∀ {p : Step} {f f' : NFile} {o o' : Nat}, p ∈ steps → p.At V f o → p.At V f' o' →
      f = f' ∧ o = o' := fun hp h1 h2 => h1.unique h2 (h.known _ hp)
  obtain ⟨q1, d1, e1, hd1, h1⟩ := C47_name h hpl (some .win32) (some parent) fuel hfuel d hd
  obtain ⟨q2, d2, e2, hd2, h2⟩ := C47_name h hpl (some .win32AndDos) (some parent) fuel hfuel d1 hd1
  obtain ⟨q3, d3, e3, hd3, h3⟩ := C47_name h hpl none (some parent) fuel hfuel d2 hd2
  -- no name of a namespace if all attributes are passed over
  have none_of : ∀ {ns : Option Namespace} {p : Step} {f o m}, p ∈ steps →
      (∃ f o, p.At V f o ∧ NameMiss ns (some parent) f o) → p.At V f o → NamedIn parent f o m →
      ¬ (∀ x, ns = some x → field (valueAt f o) 65 1 = nsCode x) := by
    rintro ns p f o m hp ⟨f', o', g1, g2⟩ g3 g4 g5
    obtain ⟨rfl, rfl⟩ := uniq hp g1 g3
    exact g2.not_fits g4.1 (fits_of_named g4 g5)
  have ge1 : (∀ p ∈ steps, ∃ f o, p.At V f o ∧ NameMiss (some .win32) (some parent) f o) →
      ∀ p ∈ steps, ∀ f o m, p.At V f o → NamedIn parent f o m → 1 ≤ nsRank f o := by
    intro hm p hp f o m g1 g2
    have := none_of hp (hm p hp) g1 g2
    apply Classical.byContradiction
    intro hlt
    refine this ?_
    rintro _ ⟨⟩
    exact nsRank_zero.1 (by omega)
  have ge2 : (∀ p ∈ steps, ∃ f o, p.At V f o ∧ NameMiss (some .win32) (some parent) f o) →
      ∀ p ∈ steps, (∃ f o, p.At V f o ∧ NameMiss (some .win32AndDos) (some parent) f o) →
      ∀ f o m, p.At V f o → NamedIn parent f o m → 2 ≤ nsRank f o := by
    intro hm p hp hmp f o m g1 g2
    have k1 := ge1 hm p hp f o m g1 g2
    have := none_of hp hmp g1 g2
    apply Classical.byContradiction
    intro hlt
    refine this ?_
    rintro _ ⟨⟩
    exact nsRank_one.1 (by omega)
  have named_of : ∀ {ns : Option Namespace} {s f o n}, NameHit ns (some parent) s f o n →
      NamedIn parent f o n := fun hh => ⟨hh.1, hh.2.1, hh.2.2.2 _ rfl⟩
  have best_eq : ∀ {n m : FileName} {ns : Option Namespace} {s f o}, nameAt f o = .ok n →
      NameHit ns (some parent) s f o m → m = n := by
    intro n m ns s f o g1 g2
    have := g2.2.1
    rw [g1] at this
    exact (Res.ok.inj this).symm
  have run1 : ∀ n, q1 = .ok (some n) → bestFileName V.base parent fuel d = (.ok (.ok n), d1) := by
    rintro n rfl
    have t1 : bestLoop V.base parent fuel [some .win32, some .win32AndDos, none] d = (.ok (some n), d1) := by
      unfold bestLoop
      rw [StM.bind_of_ok e1]; rfl
    unfold bestFileName
    rw [StM.bind_of_ok t1]
    rfl
  have run2 : ∀ n, q1 = .ok none → q2 = .ok (some n) →
      bestFileName V.base parent fuel d = (.ok (.ok n), d2) := by
    rintro n rfl rfl
    have : bestLoop V.base parent fuel [some .win32AndDos, none] d1 = (.ok (some n), d2) := by
      unfold bestLoop
      rw [StM.bind_of_ok e2]; rfl
    have t1 : bestLoop V.base parent fuel [some .win32, some .win32AndDos, none] d = (.ok (some n), d2) := by
      unfold bestLoop
      rw [StM.bind_of_ok e1]; exact this
    unfold bestFileName
    rw [StM.bind_of_ok t1]
    rfl
  have run3 : ∀ o, q1 = .ok none → q2 = .ok none → q3 = .ok o →
      bestFileName V.base parent fuel d = (.ok (match o with
        | some n => .ok n
        | none => .error (.noFileName V.base.fileRecordNumber)), d3) := by
    rintro o rfl rfl rfl
    have t2 : bestLoop V.base parent fuel [none] d2 = (.ok o, d3) := by
      unfold bestLoop
      rw [StM.bind_of_ok e3]
      cases o <;> rfl
    have : bestLoop V.base parent fuel [some .win32AndDos, none] d1 = (.ok o, d3) := by
      unfold bestLoop
      rw [StM.bind_of_ok e2]; exact t2
    have t1 : bestLoop V.base parent fuel [some .win32, some .win32AndDos, none] d = (.ok o, d3) := by
      unfold bestLoop
      rw [StM.bind_of_ok e1]; exact this
    unfold bestFileName
    rw [StM.bind_of_ok t1]
    cases o <;> rfl
  rcases h1.safe with ⟨o1, rfl⟩ | ⟨x, rfl⟩
  · cases o1 with
    | some n =>
      -- a Win32 name
      obtain ⟨pre, s, post, file, off, hs, hpre, hat, hhit⟩ := h1.found n rfl
      have hrank : nsRank file off = 0 := nsRank_zero.2 (hhit.2.2.1 _ rfl)
      have hbest : BestNamed V steps parent n := by
        refine ⟨pre, s, post, file, off, hs, hat, named_of hhit, ?_, fun p hp f o m _ _ => by omega⟩
        intro p hp f o m g1 g2
        have hps : p ∈ steps := by rw [hs]; simp [hp]
        have := none_of hps (hpre p hp) g1 g2
        apply Classical.byContradiction
        intro hlt
        refine this ?_
        rintro _ ⟨⟩
        exact nsRank_zero.1 (by omega)
      refine ⟨_, d1, run1 n rfl, hd1, ?_, ?_, ?_, ?_, .inl ⟨_, rfl⟩⟩
      · rintro n' hn'
        injection hn' with hn'
        injection hn' with hn'
        subst hn'
        exact hbest
      · rintro n' hc ⟨pre', s', post', file', off', hs', hat', hn', hp', hq'⟩
        have hsm' : s' ∈ steps := by rw [hs']; simp
        have hr0 : nsRank file' off' = 0 := by
          have hm : s ∈ pre' ++ s' :: post' := by rw [← hs', hs]; simp
          simp only [List.mem_append, List.mem_cons] at hm
          rcases hm with hm | rfl | hm
          · have := hp' s hm file off n hat (named_of hhit); omega
          · obtain ⟨rfl, rfl⟩ := uniq hsm' hat hat'
            exact hrank
          · have := hq' s hm file off n hat (named_of hhit); omega
        have hfit : NameHit (some .win32) (some parent) s' file' off' n' :=
          ⟨hn'.1, hn'.2.1, fits_of_named hn' (by rintro _ ⟨⟩; exact nsRank_zero.1 hr0)⟩
        obtain ⟨y, hy1, hy2⟩ := h1.finds pre' s' post' file' off' n' hs' (fun p hp => by
          refine miss_of_clean hc (by rw [hs']; simp [hp]) fun f o m g1 g2 g3 => ?_
          have := hp' p hp f o m g1 g2
          have := nsRank_zero.2 (g3.1 _ rfl)
          omega) hat' hfit
        injection hy1 with hy1
        injection hy1 with hy1
        rw [hy1, best_eq hn'.2.1 hy2]
      · intro m
        constructor
        · intro hh; injection hh with hh; cases hh
        · rintro ⟨_, _, hno⟩
          exact absurd (named_of hhit) (hno s (by rw [hs]; simp) file off n hat)
      · intro x
        rw [← h1.err_iff x]
        exact ⟨fun hh => (by cases hh), fun hh => (by cases hh)⟩
    | none =>
      obtain ⟨hr, hm1⟩ := h1.none_iff.1 rfl
      have hclean := clean_of_misses hr hm1
      have herr : ∀ x, ((∃ pre s post, steps = pre ++ s :: post ∧
          (∀ p ∈ pre, ∃ f o, p.At V f o ∧ NameMiss (some .win32) (some parent) f o) ∧
          (s.Fails V x ∨ ∃ file off, s.At V file off ∧ NameAttrBad file off x)) ∨
        (r = .err x ∧ ∀ p ∈ steps, ∃ f o, p.At V f o ∧ NameMiss (some .win32) (some parent) f o)) → False := by
        intro x hx
        have := (h1.err_iff x).2 hx
        cases this
      -- the second lookup cannot fail
      have nofail : ∀ {ns : Option Namespace} {q : Res (Option FileName)},
          FirstHit V (NameHit ns (some parent)) (NameMiss ns (some parent)) NameAttrBad steps r q →
          ∀ x, q ≠ .err x := by
        rintro ns q hq x rfl
        rcases (hq.err_iff x).1 rfl with ⟨pre, s, post, hs, _, hf⟩ | ⟨hx, _⟩
        · have hsm : s ∈ steps := by rw [hs]; simp
          obtain ⟨f, o, g1, g2, g3⟩ := hclean.2 s hsm
          rcases hf with hf | ⟨f', o', g4, g5⟩
          · exact g1.not_fails hf
          · obtain ⟨rfl, rfl⟩ := uniq hsm g1 g4
            rcases g5 with ⟨g5, _⟩ | ⟨g5, g6⟩
            · exact g5 g2
            · obtain ⟨m, hm⟩ := g3 g5
              rw [g6] at hm; cases hm
        · rw [hr] at hx; cases hx
      rcases h2.safe with ⟨o2, rfl⟩ | ⟨x, hx⟩
      case inr => exact absurd hx (nofail h2 x)
      cases o2 with
      | some n =>
        obtain ⟨pre, s, post, file, off, hs, hpre, hat, hhit⟩ := h2.found n rfl
        have hrank : nsRank file off = 1 := nsRank_one.2 (hhit.2.2.1 _ rfl)
        have hbest : BestNamed V steps parent n := by
          refine ⟨pre, s, post, file, off, hs, hat, named_of hhit, ?_, ?_⟩
          · intro p hp f o m g1 g2
            have := ge2 hm1 p (by rw [hs]; simp [hp]) (hpre p hp) f o m g1 g2
            omega
          · intro p hp f o m g1 g2
            have := ge1 hm1 p (by rw [hs]; simp [hp]) f o m g1 g2
            omega
        refine ⟨_, d2, run2 n rfl rfl, hd2, ?_, ?_, ?_, ?_, .inl ⟨_, rfl⟩⟩
        · rintro n' hn'
          injection hn' with hn'
          injection hn' with hn'
          subst hn'
          exact hbest
        · rintro n' hc ⟨pre', s', post', file', off', hs', hat', hn', hp', hq'⟩
          have hsm' : s' ∈ steps := by rw [hs']; simp
          have hge := ge1 hm1 s' hsm' file' off' n' hat' hn'
          have hr0 : nsRank file' off' = 1 := by
            have hm : s ∈ pre' ++ s' :: post' := by rw [← hs', hs]; simp
            simp only [List.mem_append, List.mem_cons] at hm
            rcases hm with hm | rfl | hm
            · have := hp' s hm file off n hat (named_of hhit); omega
            · obtain ⟨rfl, rfl⟩ := uniq hsm' hat hat'
              exact hrank
            · have := hq' s hm file off n hat (named_of hhit); omega
          have hfit : NameHit (some .win32AndDos) (some parent) s' file' off' n' :=
            ⟨hn'.1, hn'.2.1, fits_of_named hn' (by rintro _ ⟨⟩; exact nsRank_one.1 hr0)⟩
          obtain ⟨y, hy1, hy2⟩ := h2.finds pre' s' post' file' off' n' hs' (fun p hp => by
            refine miss_of_clean hc (by rw [hs']; simp [hp]) fun f o m g1 g2 g3 => ?_
            have := hp' p hp f o m g1 g2
            have := nsRank_one.2 (g3.1 _ rfl)
            omega) hat' hfit
          injection hy1 with hy1
          injection hy1 with hy1
          rw [hy1, best_eq hn'.2.1 hy2]
        · intro m
          constructor
          · intro hh; injection hh with hh; cases hh
          · rintro ⟨_, _, hno⟩
            exact absurd (named_of hhit) (hno s (by rw [hs]; simp) file off n hat)
        · intro x
          exact ⟨fun hh => (by cases hh), fun hh => (herr x hh).elim⟩
      | none =>
        obtain ⟨_, hm2⟩ := h2.none_iff.1 rfl
        rcases h3.safe with ⟨o3, rfl⟩ | ⟨x, hx⟩
        case inr => exact absurd hx (nofail h3 x)
        cases o3 with
        | some n =>
          obtain ⟨pre, s, post, file, off, hs, hpre, hat, hhit⟩ := h3.found n rfl
          have hsm : s ∈ steps := by rw [hs]; simp
          have hrank : 2 ≤ nsRank file off := ge2 hm1 s hsm (hm2 s hsm) file off n hat (named_of hhit)
          have hle := nsRank_le file off
          have hnone : ∀ p ∈ pre, ∀ f o m, p.At V f o → ¬ NamedIn parent f o m := by
            intro p hp f o m g1 g2
            exact none_of (by rw [hs]; simp [hp]) (hpre p hp) g1 g2 (by intro x h; cases h)
          have hbest : BestNamed V steps parent n := by
            refine ⟨pre, s, post, file, off, hs, hat, named_of hhit, ?_, ?_⟩
            · intro p hp f o m g1 g2
              exact absurd g2 (hnone p hp f o m g1)
            · intro p hp f o m g1 g2
              have hps : p ∈ steps := by rw [hs]; simp [hp]
              have := ge2 hm1 p hps (hm2 p hps) f o m g1 g2
              omega
          refine ⟨_, d3, run3 (some n) rfl rfl rfl, hd3, ?_, ?_, ?_, ?_, .inl ⟨_, rfl⟩⟩
          · rintro n' hn'
            injection hn' with hn'
            injection hn' with hn'
            subst hn'
            exact hbest
          · rintro n' hc ⟨pre', s', post', file', off', hs', hat', hn', hp', hq'⟩
            have hle' := nsRank_le file' off'
            have hfit : NameHit none (some parent) s' file' off' n' :=
              ⟨hn'.1, hn'.2.1, fits_of_named hn' (by intro x h; cases h)⟩
            obtain ⟨y, hy1, hy2⟩ := h3.finds pre' s' post' file' off' n' hs' (fun p hp => by
              refine miss_of_clean hc (by rw [hs']; simp [hp]) fun f o m g1 g2 g3 => ?_
              have hsm' : s' ∈ steps := by rw [hs']; simp
              have := hp' p hp f o m g1 g2
              have := nsRank_le f o
              have := ge2 hm1 s' hsm' (hm2 s' hsm') file' off' n' hat' hn'
              omega) hat' hfit
            injection hy1 with hy1
            injection hy1 with hy1
            dsimp only
            rw [hy1, best_eq hn'.2.1 hy2]
          · intro m
            constructor
            · intro hh; injection hh with hh; cases hh
            · rintro ⟨_, _, hno⟩
              exact absurd (named_of hhit) (hno s (by rw [hs]; simp) file off n hat)
          · intro x
            exact ⟨fun hh => (by cases hh), fun hh => (herr x hh).elim⟩
        | none =>
          obtain ⟨_, hm3⟩ := h3.none_iff.1 rfl
          have hno : ∀ p ∈ steps, ∀ f o n, p.At V f o → ¬ NamedIn parent f o n := by
            intro p hp f o n g1 g2
            exact none_of hp (hm3 p hp) g1 g2 (by intro x h; cases h)
          refine ⟨_, d3, run3 none rfl rfl rfl, hd3, ?_, ?_, ?_, ?_, .inl ⟨_, rfl⟩⟩
          · rintro n' hn'
            injection hn' with hn'
            cases hn'
          · rintro n' _ ⟨pre', s', post', file', off', hs', hat', hn', _⟩
            exact absurd hn' (hno s' (by rw [hs']; simp) file' off' n' hat')
          · intro m
            constructor
            · intro hh
              injection hh with hh
              injection hh with hh
              exact ⟨hh.symm, hclean, hno⟩
            · rintro ⟨rfl, _⟩; rfl
          · intro x
            exact ⟨fun hh => (by cases hh), fun hh => (herr x hh).elim⟩
  · -- the lookup of the Win32 name fails
    have e : bestFileName V.base parent fuel d = (.err x, d1) := by
      have t1 : bestLoop V.base parent fuel [some .win32, some .win32AndDos, none] d = (.err x, d1) := by
        unfold bestLoop
        rw [StM.bind_of_err e1]
      unfold bestFileName
      rw [StM.bind_of_err t1]
    have hx := (h1.err_iff x).1 rfl
    have hdirty : ¬ CleanNames V steps r := by
      rintro hc
      rcases hx with ⟨pre, s, post, hs, _, hf⟩ | ⟨hx, _⟩
      · have hsm : s ∈ steps := by rw [hs]; simp
        obtain ⟨f, o, g1, g2, g3⟩ := hc.2 s hsm
        rcases hf with hf | ⟨f', o', g4, g5⟩
        · exact g1.not_fails hf
        · obtain ⟨rfl, rfl⟩ := uniq hsm g1 g4
          rcases g5 with ⟨g5, _⟩ | ⟨g5, g6⟩
          · exact g5 g2
          · obtain ⟨m, hm⟩ := g3 g5
            rw [g6] at hm; cases hm
      · rw [hc.1] at hx; cases hx
    refine ⟨_, d1, e, hd1, fun n h => (by cases h), fun n hc => absurd hc hdirty,
      fun m => ⟨fun h => (by cases h), fun h => absurd h.2.1 hdirty⟩, fun y => ?_, .inr ⟨x, rfl⟩⟩
    rw [← h1.err_iff y]
    exact ⟨fun hh => (by injection hh with hh; rw [hh]), fun hh => (by injection hh with hh; rw [hh])⟩

set_option maxRecDepth 20000 in
/-- The file of C47 has a DOS name "A" and a Win32 name "a" in directory 5: the second one is shown. -/
example (d : Dev) (hd : d.Ok []) :
    ∃ n d', bestFileName exNamesView.base 5 4 d = (.ok (.ok n), d') ∧ n.name = [97, 0] := by
  have hpl : ∀ s ∈ [Step.own 56, .own 152, .own 248], ∀ file off, s.At exNamesView file off →
      field file.recordData off 4 = 0x30 → Placed file off := by
    intro s hs file off ha _
    simp only [List.mem_cons, List.not_mem_nil, or_false] at hs
    rcases hs with rfl | rfl | rfl <;> obtain ⟨rfl, rfl, _⟩ := ha <;>
      exact ⟨by decide, by decide, by decide⟩
  obtain ⟨q, d', e, _, _, hb, _⟩ := C56_best exNames_flattened hpl 5 4 (by decide) d hd
  have a : ∀ o ∈ [56, 152, 248], Step.At exNamesView (.own o) exNamesView.base o := by
    intro o ho
    simp only [List.mem_cons, List.not_mem_nil, or_false] at ho
    rcases ho with rfl | rfl | rfl <;>
      exact ⟨rfl, rfl, 96, by decide, by decide, by decide, by decide⟩
  have hc : CleanNames exNamesView [.own 56, .own 152, .own 248] (.ok none) := by
    refine ⟨rfl, fun p hp => ?_⟩
    simp only [List.mem_cons, List.not_mem_nil, or_false] at hp
    rcases hp with rfl | rfl | rfl
    · exact ⟨_, _, a 56 (by simp), by decide, fun _ => ⟨fileNameAt (valueAt exNamesView.base 56), by decide⟩⟩
    · exact ⟨_, _, a 152 (by simp), by decide, fun _ => ⟨fileNameAt (valueAt exNamesView.base 152), by decide⟩⟩
    · exact ⟨_, _, a 248 (by simp), by decide, fun _ => ⟨fileNameAt (valueAt exNamesView.base 248), by decide⟩⟩
  refine ⟨fileNameAt (valueAt exNamesView.base 152), d', ?_, by decide⟩
  rw [e, hb (fileNameAt (valueAt exNamesView.base 152)) hc ⟨[.own 56], .own 152, [.own 248], exNamesView.base, 152, rfl, a 152 (by simp),
    ⟨by decide, by decide, by decide⟩, ?_, ?_⟩]
  · intro p hp f o m g _
    simp only [List.mem_cons, List.not_mem_nil, or_false] at hp
    subst hp
    obtain ⟨rfl, rfl, _⟩ := g
    decide
  · intro p hp f o m g _
    have : nsRank exNamesView.base 152 = 0 := by decide
    omega

end NT
