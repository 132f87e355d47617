import Verif.Lemmas.ProgMain
import Verif.Lemmas.ReturnsShell
import Verif.Props.C27_Acyclic
import Verif.Props.C81_ShellPanics

/-! C82: the shell hangs only in a directory whose index has a cycle. Every command comes back, on every image; a
search by name and a listing need that no index record of the current directory is below itself. -/

namespace NT

namespace Spec

/-- The command does not search for a name and does not list a directory. -/
def ByNumber : Command → Prop
  | .attr _ arg => arg = [] ∨ ∃ t, arg = '/' :: t
  | .fileinfo arg => arg = [] ∨ ∃ t, arg = '/' :: t
  | .get arg => arg = [] ∨ (∃ t, arg = ':' :: t) ∨ ∃ t, arg = '/' :: t
  | .cd arg => arg = [] ∨ arg = "..".toList
  | .dir => False
  | _ => True

/-- No index record of the directory is below itself. -/
def DirAcyclic (f : NFile) (img : Bytes) : Prop :=
  ∀ fuel d ix d', d.Calm → d.img = img → f.directoryIndex fuel d = (.ok ix, d') → Acyclic ix img

/-- No index that a program can get hold of on the volume has a record that is below itself. -/
def CycleFree (n : Ntfs) (img : Bytes) : Prop := ∀ ix, Use.Obtained n img (.index ix) → Acyclic ix img

end Spec

open Spec

/-! ### One bound for all indexes -/

theorem NFile.directoryIndex_stop {f : NFile} {fuel : Nat} {d d' : Dev} {ix : Index}
    (h : f.directoryIndex fuel d = (.ok ix, d')) : ix.rootRanges.stop < 16 + U32 := by
  obtain ⟨b, d1, _, h⟩ := StM.bind_ok h
  split at h
  · cases congrArg Prod.fst h
  · obtain ⟨r, d2, hr, h⟩ := StM.bind_ok h
    obtain ⟨a, d3, _, h⟩ := StM.bind_ok h
    obtain ⟨root, d4, _, h⟩ := StM.bind_ok h
    obtain ⟨o, d5, ho, h⟩ := StM.bind_ok h
    have h : Index.new r o = .ok ix := congrArg Prod.fst h
    unfold Index.new at h
    simp only [Res.bind_eq_ok] at h
    obtain ⟨_, _, _, _, root', _, _, _, _, _, n, hr, h⟩ := h
    cases h
    show n.stop < _
    obtain ⟨⟨s, e, p⟩, h1, h2⟩ := Res.bind_eq_ok.1 hr
    obtain ⟨x, h3, h2⟩ := Res.bind_eq_ok.1 h2
    obtain ⟨o', _, h1⟩ := Res.bind_eq_ok.1 h1
    obtain ⟨u, hu, h1⟩ := Res.bind_eq_ok.1 h1
    have hlt : u < U32 := readLE_lt hu
    have he : 16 + u = e := congrArg (fun x => x.2.1) (Res.ok.inj h1)
    unfold NodeRanges.new at h2
    split at h2
    · cases h2
      show x.length < _
      unfold idxRange at h3
      cases hg : getRange root'.slice s e with
      | none => rw [hg] at h3; cases h3
      | some y =>
        rw [hg] at h3
        cases h3
        obtain ⟨_, _, rfl⟩ := getRange_isSome_iff.1 hg
        rw [List.length_take]
        omega
    · cases h2

/-- One number of rounds suffices for every acyclic index of a directory, on every image. -/
theorem acyclic_bound : ∃ N, ∀ (ix : Index) (img : Bytes), ix.Sane → ix.rootRanges.stop < 16 + U32 → img.length < U64 →
    Acyclic ix img → ∀ fuel, N ≤ fuel →
      (∀ n it, Listed ix img fuel n it → n < N ∧
        ∀ d, d.Calm → d.img = img → (IndexEntries.next ix fuel (it, d)).1 ≠ .diverge) ∧
      ∀ d, d.Calm → d.img = img → ∀ ntfs name, (ix.findName ntfs name fuel d).1 ≠ .diverge := by
  classical
  obtain ⟨s, hs⟩ := ints_finite (-(I63 : Int)) (I63 : Int)
  refine ⟨(16 + U32) * nodeCost (24 + U32) (s.card + 1) + 2, fun ix img h1 h2 h3 h4 fuel hfuel => ?_⟩
  have hm : Frames (Met ix img) (ix.below img s) (24 + U32) [ix.rootRanges] _ :=
    .cons (k := s.card + 1) h1.2 (fun v hv => ⟨⟨v, hv, .refl⟩, Nat.lt_succ_of_le (Finset.card_filter_le s _)⟩) .nil
  have hr : ix.rootRanges.rest * nodeCost (24 + U32) (s.card + 1) ≤ (16 + U32) * nodeCost (24 + U32) (s.card + 1) :=
    Nat.mul_le_mul_right _ (by unfold NodeRanges.rest; omega)
  generalize ix.rootRanges.rest * nodeCost (24 + U32) (s.card + 1) = c at hm hr
  generalize (16 + U32) * nodeCost (24 + U32) (s.card + 1) = C at hfuel hr ⊢
  have H := Index.descends hs h1 h3 h4
  refine ⟨fun n it hl => ?_, fun d hc hd ntfs name => ?_⟩
  · have key : ∃ m', Frames (Met ix img) (ix.below img s) (24 + U32) it.inner m' ∧ n + m' ≤ c + 1 := by
      induction hl with
      | start => exact ⟨_, hm, by omega⟩
      | @one n it e d _ h1 h2 h3 ih =>
        obtain ⟨m1, f1, f2⟩ := ih
        obtain ⟨_, m2, g1, _, g3⟩ := IndexEntries.next_ends H fuel m1 it d f1 ⟨h1, h2⟩ (by omega)
        have := g3 e h3
        exact ⟨m2, g1, by omega⟩
      | @other n it d _ h1 h2 ih =>
        obtain ⟨m1, f1, f2⟩ := ih
        obtain ⟨_, m2, g1, g2, _⟩ := IndexEntries.next_ends H fuel m1 it d f1 ⟨h1, h2⟩ (by omega)
        exact ⟨m2, g1, by omega⟩
    obtain ⟨m', g1, g2⟩ := key
    exact ⟨by omega, fun d hc hd => (IndexEntries.next_ends H fuel m' it d g1 ⟨hc, hd⟩ (by omega)).1⟩
  · exact Index.findLoop_returns (key := FileName.keyFromSlice) FileName.keyFromSlice_returns
      (fun f => upcaseCmp_returns _ _ _) H fuel _ ix.rootRanges d hm ⟨hc, hd⟩ (by omega)

theorem dirLoop_returns {ix : Index} {img : Bytes} {fuel N : Nat}
    (h : ∀ n it, Listed ix img fuel n it → n < N ∧
      ∀ d, d.Calm → d.img = img → (IndexEntries.next ix fuel (it, d)).1 ≠ .diverge)
    (k c : Nat) (it : IndexEntries) (out : List (Bool × Bytes)) (d : Dev) (hl : Listed ix img fuel c it)
    (hc : d.Calm) (hd : d.img = img) (hk : N ≤ c + k) : (dirLoop ix fuel k out (it, d)).1.Returns := by
  induction k generalizing c it out d with
  | zero => have := (h c it hl).1; omega
  | succ k ih =>
    have h1 := (h c it hl).2 d hc hd
    have h2 := (IndexEntries.next_rep ix fuel).later it hc
    have h3 := fun e => Listed.one (e := e) d hl hc hd
    unfold dirLoop
    generalize IndexEntries.next ix fuel (it, d) = q at h1 h2 h3
    obtain ⟨r, it', d'⟩ := q
    cases r with
    | ok o =>
      cases o with
      | none => exact .ok _
      | some e =>
        dsimp only at h2 h3 ⊢
        have h4 := e.fileNameKey_returns
        cases hk' : e.fileNameKey with
        | ok x => exact ih (c + 1) it' _ d' (h3 e rfl) (h2.calm hc) (h2.img.trans hd) (by omega)
        | err e => exact .err _
        | panic p => exact .panic _
        | diverge => exact absurd hk' h4
    | err e => exact .err _
    | panic p => exact .panic _
    | diverge => exact absurd rfl h1

/-! ### One command -/

theorem Spec.Obtained.sized {s : Shell} (hv : Obtained (.volume s.ntfs)) (hf : ∀ f ∈ s.stack, Obtained (.file f)) :
    s.Sized := ⟨hv.sane, fun f h => (hf f h).sane⟩

theorem Session.run_returns {s : Session} (hs : s.shell.Sized) {fuel : Nat} (hf : 2 ^ 97 ≤ fuel) (c : Command) (d : Dev)
    (h : ByNumber c ∨ s.shell.Searches fuel d ∧ (s.shell.dir fuel d).1.Returns) : (s.run fuel c d).1.Returns := by
  have harg : ∀ arg : List Char, ((arg = [] ∨ ∃ t, arg = '/' :: t) ∨ s.shell.Searches fuel d ∧ (s.shell.dir fuel d).1.Returns) →
      arg = [] ∨ arg.head? = some '/' ∨ s.shell.Searches fuel d := by
    rintro arg ((h | ⟨t, rfl⟩) | ⟨h, _⟩)
    · exact .inl h
    · exact .inr (.inl rfl)
    · exact .inr (.inr h)
  unfold Session.run
  cases c with
  | attr w arg =>
    have h1 := hs.attr hf w arg d (harg arg h)
    dsimp only
    generalize s.shell.attr w arg fuel d = q at h1
    exact shownResult_returns h1 _
  | cd arg =>
    have h1 := hs.cd hf arg d (by
      rcases h with (h | h) | ⟨h, _⟩
      · exact .inl h
      · exact .inr (.inl h)
      · exact .inr (.inr h))
    dsimp only
    generalize s.shell.cd arg fuel d = q at h1
    obtain ⟨r, d'⟩ := q
    cases r with
    | ok o => exact .ok _
    | err e => exact .ok _
    | panic p => exact .panic _
    | diverge => exact absurd rfl h1
  | dir =>
    rcases h with h | ⟨_, h1⟩
    · exact h.elim
    dsimp only
    generalize s.shell.dir fuel d = q at h1
    obtain ⟨r, l, d'⟩ := q
    cases r with
    | ok o => exact .ok _
    | err e => exact .ok _
    | panic p => exact .panic _
    | diverge => exact absurd rfl h1
  | exit => exact .ok _
  | fileinfo arg =>
    have h1 := hs.fileinfo hf arg d (harg arg h)
    dsimp only
    generalize s.shell.fileinfo arg fuel d = q at h1
    exact shownResult_returns h1 _
  | fsinfo =>
    have h1 := s.shell.ntfs.fsinfo_returns d
    dsimp only
    generalize s.shell.ntfs.fsinfo d = q at h1
    obtain ⟨r, l, d'⟩ := q
    cases r with
    | ok o => exact .ok _
    | err e => exact .ok _
    | panic p => exact .panic _
    | diverge => exact absurd rfl h1
  | get arg =>
    have h1 := hs.getShown hf arg s.host.blocked d (by
      rcases h with (rfl | ⟨t, rfl⟩ | ⟨t, rfl⟩) | ⟨h, _⟩
      · exact .inl rfl
      · exact .inl (by simp [splitStream])
      · exact .inr (.inl (by simp [splitStream]))
      · exact .inr (.inr h))
    dsimp only
    generalize s.shell.getShown arg s.host.blocked fuel d = q at h1
    exact shownResult_returns h1 _
  | help arg => exact .ok _
  | nothing => exact .ok _
  | invalid command => exact .ok _

/-- **C82**: a command that does not search for a name and does not list a directory comes back, on every image and
whatever the reader does, even if it interrupts. Its loops make fewer than 2^97 rounds. -/
theorem C82_numbers (s : Session) (hv : Obtained (.volume s.shell.ntfs))
    (hf : ∀ f ∈ s.shell.stack, Obtained (.file f)) (c : Command) (hc : ByNumber c) (fuel : Nat) (h : 2 ^ 97 ≤ fuel)
    (d : Dev) : (s.run fuel c d).1 ≠ .diverge :=
  Session.run_returns (hv.sized hf) h c d (.inl hc)

theorem Session.run_acyclic : ∃ N, 2 ^ 97 ≤ N ∧ ∀ fuel, N ≤ fuel → ∀ (s : Session) (c : Command) (d : Dev),
    s.shell.Sized → d.Calm → d.img.length < U64 →
    (ByNumber c ∨ ∀ f, s.shell.stack.head? = some f → DirAcyclic f d.img) → (s.run fuel c d).1.Returns := by
  obtain ⟨N, hN⟩ := acyclic_bound
  refine ⟨N + 2 ^ 97, by omega, fun fuel hfuel s c d hs hc hi ha => ?_⟩
  refine Session.run_returns hs (by omega) c d (ha.imp id fun ha => ?_)
  have key : ∀ f, s.shell.stack.head? = some f → ∀ ix d', f.directoryIndex fuel d = (.ok ix, d') →
      d'.Calm ∧ d'.img = d.img ∧ _ := fun f hf ix d' e => by
    have hl := (f.directoryIndex_rep fuel).later hc
    rw [e] at hl
    exact ⟨hl.calm hc, hl.img, hN ix d.img (NFile.directoryIndex_sane e) (NFile.directoryIndex_stop e) hi
      (ha f hf fuel d ix d' hc rfl e) fuel (by omega)⟩
  constructor
  · intro f hf ix d' e name
    obtain ⟨h1, h2, h3⟩ := key f hf ix d' e
    exact h3.2 d' h1 h2 _ name
  · have h1 : (do let f ← StM.lift s.shell.last; f.directoryIndex fuel : StM Dev Index).Comes :=
      .bind (.lift s.shell.last_returns) fun f _ _ e => hs.openIndex (by omega) f (congrArg Prod.fst e)
    have h1 := h1 d
    have h2 : ∀ ix d', (do let f ← StM.lift s.shell.last; f.directoryIndex fuel : StM Dev Index) d = (.ok ix, d') →
        ∃ f, s.shell.stack.head? = some f ∧ f.directoryIndex fuel d = (.ok ix, d') := fun ix d' e => by
      obtain ⟨f, d1, e1, e⟩ := StM.bind_ok_iff.1 e
      obtain ⟨e0, rfl⟩ : s.shell.last = .ok f ∧ d = d1 := Prod.mk.inj e1
      exact ⟨f, (Shell.last_head e0).1, e⟩
    unfold Shell.dir
    generalize (do let f ← StM.lift s.shell.last; f.directoryIndex fuel : StM Dev Index) d = q at h1 h2
    obtain ⟨r, d'⟩ := q
    cases r with
    | ok ix =>
      obtain ⟨f, hf, e⟩ := h2 ix d' rfl
      obtain ⟨g1, g2, g3⟩ := key f hf ix d' e
      exact dirLoop_returns g3.1 fuel 0 _ _ d' .start g1 g2 (by omega)
    | err e => exact .err _
    | panic p => exact .panic _
    | diverge => exact absurd rfl h1

/-- **C82, partial.** Every command comes back if no index record of the current directory is below itself. One number of
rounds suffices for all images, all readers that do not interrupt, all commands and all states of the shell.

Full claim: every command comes back. It is false, see `C82_hangs`. -/
theorem C82_command_partial : ∃ N, ∀ fuel, N ≤ fuel → ∀ (s : Session) (c : Command) (d : Dev),
    Obtained (.volume s.shell.ntfs) → (∀ f ∈ s.shell.stack, Obtained (.file f)) → d.Calm → d.img.length < U64 →
    (∀ f, s.shell.stack.head? = some f → DirAcyclic f d.img) → (s.run fuel c d).1 ≠ .diverge := by
  obtain ⟨N, _, h⟩ := Session.run_acyclic
  exact ⟨N, fun fuel hfuel s c d hv hf hc hi ha => h fuel hfuel s c d (hv.sized hf) hc hi (.inr ha)⟩

/-- **C82**: a command that does not come back searches for a name or lists a directory, and the current directory has an
index record that is below itself and can be met by a traversal. -/
theorem C82_only_cycles : ∃ N, ∀ fuel, N ≤ fuel → ∀ (s : Session) (c : Command) (d : Dev),
    Obtained (.volume s.shell.ntfs) → (∀ f ∈ s.shell.stack, Obtained (.file f)) → d.Calm → d.img.length < U64 →
    (s.run fuel c d).1 = .diverge →
    ¬ ByNumber c ∧ ∃ f k d1 ix d2 v, s.shell.stack.head? = some f ∧ d1.Calm ∧ d1.img = d.img ∧
      f.directoryIndex k d1 = (.ok ix, d2) ∧ Met ix d.img v ∧ Relation.TransGen (Leads ix d.img) v v := by
  obtain ⟨N, h97, h⟩ := Session.run_acyclic
  refine ⟨N, fun fuel hfuel s c d hv hf hc hi hang => ⟨fun hb => ?_, ?_⟩⟩
  · exact C82_numbers s hv hf c hb fuel (by omega) d hang
  · apply Classical.byContradiction
    intro hn
    refine h fuel hfuel s c d (hv.sized hf) hc hi (.inr fun f hf k d1 ix d2 h1 h2 h3 v hm ht => hn ?_) hang
    exact ⟨f, k, d1, ix, d2, v, hf, h1, h2, h3, hm, ht⟩

/-! ### The whole session -/

/-- What the proof keeps about the shell between two commands. -/
structure Shell.On (s : Shell) (n : Ntfs) (img : Bytes) : Prop where
  sized : s.Sized
  volume : Use.Obtained n img (.volume s.ntfs)
  files : ∀ f ∈ s.stack, Use.Obtained n img (.file f)

theorem Shell.On.file {s : Shell} {n : Ntfs} {img : Bytes} (h : s.On n img) {k : Nat} {d d' : Dev} {f : NFile}
    (hd : d.img = img) (e : s.ntfs.file k d = (.ok f, d')) :
    f.recordData.length < U32 ∧ Use.Obtained n img (.file f) := by
  refine ⟨by rw [Ntfs.file_size e]; exact h.sized.record, .call h.volume (.file k hd) ?_⟩
  rw [e]
  exact List.mem_singleton.2 rfl

theorem Shell.On.acyclic {s : Shell} {n : Ntfs} {img : Bytes} (h : s.On n img) (hn : CycleFree n img) {f : NFile}
    (hf : f ∈ s.stack) : DirAcyclic f img := by
  intro fuel d ix d' hc hd e
  refine hn ix (.call (h.files f hf) (.directoryIndex fuel hd) ?_)
  rw [e]
  exact List.mem_singleton.2 rfl

theorem Shell.On.cd {s s' : Shell} {n : Ntfs} {img : Bytes} (h : s.On n img) {arg : List Char} {fuel : Nat} {d d' : Dev}
    (hc : d.Calm) (hd : d.img = img) {m : Option ShellMsg} (e : s.cd arg fuel d = (.ok (m, s'), d')) : s'.On n img := by
  unfold Shell.cd at e
  split at e
  · cases e; exact h
  split at e
  · split at e
    · cases e; exact h
    · cases e
      exact ⟨⟨h.sized.record, fun f hf => h.sized.stack f (List.mem_of_mem_drop hf)⟩, h.volume,
        fun f hf => h.files f (List.mem_of_mem_drop hf)⟩
  unfold Shell.cdInto at e
  obtain ⟨dir, d1, e1, e⟩ := StM.bind_ok_iff.1 e
  obtain ⟨e0, rfl⟩ : s.last = .ok dir ∧ d = d1 := Prod.mk.inj e1
  obtain ⟨ix, d2, e2, e⟩ := StM.bind_ok_iff.1 e
  obtain ⟨o, d3, e3, e⟩ := StM.bind_ok_iff.1 e
  cases o with
  | none => cases e; exact h
  | some x =>
    obtain ⟨k, d4, e4, e⟩ := StM.bind_ok_iff.1 e
    split at e
    · cases e; exact h
    obtain ⟨f, d5, e5, e⟩ := StM.bind_ok_iff.1 e
    obtain ⟨o, d6, e6, e⟩ := StM.bind_ok_iff.1 e
    cases o with
    | error m => cases e; exact h
    | ok y =>
      cases e
      obtain ⟨r, d7, e7, e5⟩ := StM.bind_ok_iff.1 e5
      have l1 := (dir.directoryIndex_rep fuel).later hc
      rw [e2] at l1
      have l2 := (Index.findName_rep ix s.ntfs (utf16 arg) fuel).later (l1.calm hc)
      rw [e3] at l2
      have k1 : d3 = d4 := (Prod.mk.inj e4).2
      have k2 : d4 = d7 := (Prod.mk.inj e7).2
      subst k1 k2
      have hf := h.file ((l1.trans l2).img.trans hd) e5
      refine ⟨⟨h.sized.record, fun g hg => ?_⟩, h.volume, fun g hg => ?_⟩
      · rcases List.mem_cons.1 hg with rfl | hg
        · exact hf.1
        · exact h.sized.stack g hg
      · rcases List.mem_cons.1 hg with rfl | hg
        · exact hf.2
        · exact h.files g hg

theorem Session.run_stays {s : Session} {n : Ntfs} {img : Bytes} (h : s.shell.On n img) (c : Command) (fuel : Nat) {d : Dev}
    (hc : d.Calm) (hd : d.img = img) : (s.run fuel c d).2.2.1.shell.On n img := by
  unfold Session.run
  cases c with
  | cd arg =>
    have h1 := fun m s' d' => h.cd (arg := arg) (fuel := fuel) hc hd (m := m) (s' := s') (d' := d')
    dsimp only
    generalize s.shell.cd arg fuel d = q at h1
    obtain ⟨r, d'⟩ := q
    cases r with
    | ok o => exact h1 o.1 o.2 d' rfl
    | err e => exact h
    | panic p => exact h
    | diverge => exact h
  | dir =>
    dsimp only
    generalize s.shell.dir fuel d = q
    obtain ⟨r, l, d'⟩ := q
    cases r <;> exact h
  | fsinfo =>
    dsimp only
    generalize s.shell.ntfs.fsinfo d = q
    obtain ⟨r, l, d'⟩ := q
    cases r <;> exact h
  | _ => exact h

theorem Session.run_later (fuel : Nat) (c : Command) (s : Session) {d : Dev} (hd : d.Calm) :
    d.Later (s.run fuel c d).2.2.2 := by
  obtain ⟨t, ht⟩ := (Session.run_rep fuel c s).asks
  show d.Later ((fun d => s.run fuel c d) d).2.2.2
  rw [ht d hd]
  exact t.run_later d

theorem Session.loop_returns {n : Ntfs} {img : Bytes} (hn : CycleFree n img) (hi : img.length < U64) {fuel : Nat}
    (H : ∀ (s : Session) (c : Command) (d : Dev), s.shell.Sized → d.Calm → d.img.length < U64 →
      (ByNumber c ∨ ∀ f, s.shell.stack.head? = some f → DirAcyclic f d.img) → (s.run fuel c d).1.Returns)
    (lines : List (Option (List Char))) (s : Session) (d : Dev) (hs : s.shell.On n img) (hc : d.Calm)
    (hd : d.img = img) : (Session.loop fuel lines s d).1.Returns := by
  induction lines generalizing s d with
  | nil => exact .ok _
  | cons l rest ih =>
    cases l with
    | none => exact .panic _
    | some line =>
      unfold Session.loop
      split
      · exact .ok _
      split
      · exact .ok _
      have h1 := H s (Command.parse line) d hs.sized hc (by rw [hd]; exact hi) (.inr fun f hf => by
        rw [hd]
        exact hs.acyclic hn (List.mem_of_mem_head? hf))
      have h2 := Session.run_stays hs (Command.parse line) fuel hc hd
      have h3 := Session.run_later fuel (Command.parse line) s hc
      generalize s.run fuel (Command.parse line) d = q at h1 h2 h3
      obtain ⟨r, out, s', d'⟩ := q
      cases r with
      | ok u =>
        have := ih s' d' h2 (h3.calm hc) (h3.img.trans hd)
        dsimp only
        generalize Session.loop fuel rest s' d' = q at this
        exact this
      | err e => exact .err _
      | panic p => exact .panic _
      | diverge => exact absurd rfl h1

/-- **C82, partial.** A whole session comes back, whatever is typed, if no index of the volume has a cycle.

Full claim: on every image. It is false, see `C82_hangs`. -/
theorem C82_shell_partial : ∃ N, ∀ fuel, N ≤ fuel → ∀ (lines : List (Option (List Char))) (host : Host) (d : Dev),
    d.Calm → d.img.length < U64 → (∀ n d', Ntfs.new d = (.ok n, d') → CycleFree n d.img) →
    (shellMain fuel lines host d).1 ≠ .diverge := by
  obtain ⟨N, h97, h⟩ := Session.run_acyclic
  refine ⟨N, fun fuel hfuel lines host d hc hi hn => ?_⟩
  have h1 : (Shell.start fuel).Comes := .bind Ntfs.new_comes.1 fun n d1 d2 e1 =>
    .bind (n.readUpcaseTable_comes (Nat.le_trans (attrBound_le (Ntfs.new_comes.2 _ _ _ e1)) (by omega))) fun m _ _ _ =>
    .bind (Ntfs.file_fine m 5).comes fun _ _ _ _ => .pure _
  have h1 := h1 d
  have h2 := (Shell.start_rep fuel).later hc
  have h3 : ∀ sh d', Shell.start fuel d = (.ok sh, d') → ∃ n d1, Ntfs.new d = (.ok n, d1) ∧ sh.On n d.img := by
    intro sh d' e
    obtain ⟨n, d1, e1, e⟩ := StM.bind_ok_iff.1 e
    obtain ⟨m, d2, e2, e⟩ := StM.bind_ok_iff.1 e
    obtain ⟨f, d3, e3, e⟩ := StM.bind_ok_iff.1 e
    cases e
    have l1 := Ntfs.new_rep.later hc
    rw [e1] at l1
    have l2 := (n.readUpcaseTable_rep fuel).later (l1.calm hc)
    rw [e2] at l2
    have hm : Use.Obtained n d.img (.volume m) := by
      refine .call .volume (.readUpcaseTable fuel l1.img) ?_
      rw [e2]
      exact List.mem_singleton.2 rfl
    have hsize : m.fileRecordSize < U32 := (Obtained.upcase (.volume e1) e2).sane
    refine ⟨n, d1, e1, ⟨hsize, fun g hg => ?_⟩, hm, fun g hg => ?_⟩
    · cases List.mem_singleton.1 hg
      rw [Ntfs.file_size e3]
      exact hsize
    · cases List.mem_singleton.1 hg
      refine .call hm (.file 5 (l1.trans l2).img) ?_
      rw [show m.file 5 d2 = _ from e3]
      exact List.mem_singleton.2 rfl
  unfold shellMain
  generalize Shell.start fuel d = q at h1 h2 h3
  obtain ⟨r, d'⟩ := q
  cases r with
  | ok sh =>
    obtain ⟨n, d1, e1, hs⟩ := h3 sh d' rfl
    have := Session.loop_returns (hn n d1 e1) hi (h fuel hfuel) lines ⟨sh, host⟩ d' hs (h2.calm hc) h2.img
    dsimp only
    generalize Session.loop fuel lines ⟨sh, host⟩ d' = q at this
    exact this
  | err e => exact Res.Returns.err _
  | panic p => exact Res.Returns.panic _
  | diverge => exact absurd rfl h1

/-! ### A directory in which it hangs -/

theorem Attrs.search_mono {α : Type} (pick : AttrItem → Attr → StM Dev (Option α)) (k : Nat) :
    ∀ (fuel : Nat) (s : Attrs × Dev), k ≤ fuel → (Attrs.search pick k s).1 ≠ .diverge →
      Attrs.search pick fuel s = Attrs.search pick k s := by
  induction k with
  | zero => exact fun fuel s _ h => absurd rfl h
  | succ k ih =>
    intro fuel s hk h
    obtain ⟨fuel, rfl⟩ : ∃ j, fuel = j + 1 := ⟨fuel - 1, by omega⟩
    unfold Attrs.search at h ⊢
    rw [StM.bind_apply] at h ⊢
    rw [StM.bind_apply]
    generalize Attrs.next s = q at h
    obtain ⟨r, s1⟩ := q
    cases r with
    | err e => rfl
    | panic e => rfl
    | diverge => rfl
    | ok o =>
      cases o with
      | none => rfl
      | some item =>
        dsimp only at h ⊢
        rw [StM.bind_apply] at h ⊢
        rw [StM.bind_apply]
        generalize StM.lift item.toAttribute s1 = q at h
        obtain ⟨r, s2⟩ := q
        cases r with
        | err e => rfl
        | panic e => rfl
        | diverge => rfl
        | ok a =>
          dsimp only at h ⊢
          rw [StM.bind_apply] at h ⊢
          rw [StM.bind_apply]
          generalize StM.onDev (pick item a) s2 = q at h
          obtain ⟨r, s3⟩ := q
          cases r with
          | err e => rfl
          | panic e => rfl
          | diverge => rfl
          | ok o =>
            cases o with
            | some x => rfl
            | none => exact ih fuel s3 (by omega) h

theorem NFile.findAttribute_mono (f : NFile) (ty : AttrType) (name : Option (List Nat)) {k fuel : Nat} (hk : k ≤ fuel)
    (d : Dev) (h : (f.findAttribute ty name k d).1 ≠ .diverge) :
    f.findAttribute ty name fuel d = f.findAttribute ty name k d := by
  have hs : f.search (fun item a => StM.lift (pickAttribute ty name item a)) fuel d =
      f.search (fun item a => StM.lift (pickAttribute ty name item a)) k d := by
    have h1 : (f.search (fun item a => StM.lift (pickAttribute ty name item a)) k d).1 ≠ .diverge := by
      intro e
      generalize hq : f.search (fun item a => StM.lift (pickAttribute ty name item a)) k d = q at e
      obtain ⟨r, d'⟩ := q
      cases e
      rw [NFile.findAttribute_eq f ty name k d d' _ hq] at h
      exact h rfl
    unfold NFile.search at h1 ⊢
    cases hf : f.attributes with
    | err e => rfl
    | panic e => rfl
    | diverge => rfl
    | ok it =>
      rw [hf] at h1
      dsimp only at h1 ⊢
      rw [Attrs.search_mono _ k fuel (it, d) hk h1]
  unfold NFile.findAttribute
  rw [StM.bind_apply, StM.bind_apply, hs]

/-- What `directory_index` returns does not depend on the number of rounds. -/
theorem NFile.directoryIndex_mono (f : NFile) {k fuel : Nat} (hk : k ≤ fuel) (d : Dev)
    (h : (f.directoryIndex k d).1 ≠ .diverge) : f.directoryIndex fuel d = f.directoryIndex k d := by
  unfold NFile.directoryIndex at h ⊢
  rw [StM.bind_apply] at h ⊢
  rw [StM.bind_apply]
  generalize StM.lift f.isDirectory d = q at h
  obtain ⟨r, d1⟩ := q
  cases r with
  | err e => rfl
  | panic e => rfl
  | diverge => rfl
  | ok b =>
    cases b with
    | false => rfl
    | true =>
      dsimp only [Bool.not_true] at h ⊢
      rw [if_neg (by decide)] at h ⊢
      rw [if_neg (by decide)]
      rw [StM.bind_apply] at h ⊢
      rw [StM.bind_apply]
      have h1 : (f.findAttribute .indexRoot (some i30) k d1).1 ≠ .diverge := by
        intro e
        generalize f.findAttribute .indexRoot (some i30) k d1 = q at e h
        obtain ⟨r, d'⟩ := q
        cases e
        exact h rfl
      rw [NFile.findAttribute_mono f _ _ hk d1 h1]
      generalize f.findAttribute .indexRoot (some i30) k d1 = q at h
      obtain ⟨r, d2⟩ := q
      cases r with
      | err e => rfl
      | panic e => rfl
      | diverge => rfl
      | ok item =>
        dsimp only at h ⊢
        rw [StM.bind_apply] at h ⊢
        rw [StM.bind_apply]
        generalize StM.lift item.toAttribute d2 = q at h
        obtain ⟨r, d3⟩ := q
        cases r with
        | err e => rfl
        | panic e => rfl
        | diverge => rfl
        | ok a =>
          dsimp only at h ⊢
          rw [StM.bind_apply] at h ⊢
          rw [StM.bind_apply]
          generalize StM.lift a.residentIndexRoot d3 = q at h
          obtain ⟨r, d4⟩ := q
          cases r with
          | err e => rfl
          | panic e => rfl
          | diverge => rfl
          | ok root =>
            dsimp only at h ⊢
            rw [StM.bind_apply] at h ⊢
            rw [StM.bind_apply]
            have e : f.indexAllocationItem root fuel d4 = f.indexAllocationItem root k d4 := by
              have h1 : (f.indexAllocationItem root k d4).1 ≠ .diverge := by
                intro e
                generalize f.indexAllocationItem root k d4 = q at e h
                obtain ⟨r, d'⟩ := q
                cases e
                exact h rfl
              unfold NFile.indexAllocationItem at h1 ⊢
              rw [StM.bind_apply] at h1 ⊢
              rw [StM.bind_apply]
              generalize StM.lift root.isLarge d4 = q at h1
              obtain ⟨r, d5⟩ := q
              cases r with
              | err e => rfl
              | panic e => rfl
              | diverge => rfl
              | ok b =>
                cases b with
                | false => rfl
                | true =>
                  dsimp only at h1 ⊢
                  rw [if_pos rfl] at h1 ⊢
                  rw [if_pos rfl]
                  rw [StM.bind_apply] at h1 ⊢
                  rw [StM.bind_apply]
                  rw [NFile.findAttribute_mono f _ _ hk d5]
                  intro e
                  generalize f.findAttribute .indexAllocation (some i30) k d5 = q at e h1
                  obtain ⟨r, d'⟩ := q
                  cases e
                  exact h1 rfl
            rw [e]

theorem Session.run_hangs {s : Session} {f : NFile} (hl : s.shell.stack.head? = some f) {img : Bytes} {fuel : Nat}
    {ix : Index} {d d1 : Dev} (hd : d1.Ok img)
    (hix : f.directoryIndex fuel d = (.ok ix, d1) ∨ (f.directoryIndex fuel d).1 = .diverge)
    {R : Int → Bytes → Nat → Nat → Prop} (hR : ix.LoadsBy img R) (V : Int → Prop)
    (hV : ∀ v, V v → ∃ b off stop, R v b off stop ∧ LeadsInto V true b off stop)
    (hroot : LeadsInto V true ix.rootRanges.data ix.rootRanges.start ix.rootRanges.stop)
    (c : Command) (hc : ¬ ByNumber c) (hh : ∀ name, s.host.blocked name = false) :
    (s.run fuel c d).1 = .diverge := by
  have hlast : s.shell.last = .ok f := by
    unfold Shell.last
    cases hs : s.shell.stack with
    | nil => rw [hs] at hl; cases hl
    | cons g t => rw [hs] at hl; cases hl; rfl
  have hfind : ∀ name, (ix.findName s.shell.ntfs name fuel d1).1 = .diverge := fun name =>
    C27_cyclic_find hR V hV hroot _ _ fuel d1 hd
  have hnext := C27_cyclic_entries hR V true hV hroot fuel d1 hd
  have hstop : ∀ {α β : Type} {p : StM Dev α} {k : α → StM Dev β} {d : Dev}, (p d).1 = .diverge →
      ((p >>= k) d).1 = .diverge := by
    intro α β p k d h
    rw [StM.bind_apply]
    generalize p d = q at h
    obtain ⟨r, d'⟩ := q
    cases h
    rfl
  have hopen : ∀ {α : Type} (k : NFile → Index → StM Dev α), (k f ix d1).1 = .diverge →
      ((do let dir ← StM.lift s.shell.last; let ix ← dir.directoryIndex fuel; k dir ix : StM Dev α) d).1 =
        .diverge := by
    intro α k hk
    rw [StM.bind_apply, StM.lift_apply, hlast]
    dsimp only
    rcases hix with hix | hix
    · rw [StM.bind_apply, hix]
      exact hk
    · exact hstop hix
  have hparse : ∀ arg : List Char, ¬ (arg = [] ∨ ∃ t, arg = '/' :: t) →
      (s.shell.parseFileArg arg fuel d).1 = .diverge := by
    intro arg ha
    have h1 : ¬ arg = [] := fun h => ha (.inl h)
    have h2 : stripPrefix ['/'] arg = none := by
      cases arg with
      | nil => exact absurd rfl h1
      | cons c t =>
        unfold stripPrefix
        rw [if_neg]
        intro h
        simp only [List.length_cons, List.length_nil, Nat.zero_add, List.take_succ_cons, List.take_zero,
          List.cons.injEq, and_true] at h
        exact ha (.inr ⟨t, by rw [h]⟩)
    unfold Shell.parseFileArg
    rw [if_neg h1, h2]
    dsimp only
    exact hopen _ (hstop (hfind _))
  have hshown : ∀ {α : Type} {r : Res (Except ShellMsg α)} (out : List TermLine), r = .diverge →
      (shownResult r out).1 = .diverge := by
    intro α r out h
    subst h
    rfl
  unfold Session.run
  cases c with
  | attr w arg =>
    have h := hparse arg hc
    dsimp only
    refine hshown _ ?_
    unfold Shell.attr
    generalize s.shell.parseFileArg arg fuel d = q at h
    obtain ⟨r, d'⟩ := q
    cases h
    rfl
  | cd arg =>
    have h : (s.shell.cd arg fuel d).1 = .diverge := by
      unfold Shell.cd
      rw [if_neg (show ¬ arg = [] from fun h => hc (.inl h)),
        if_neg (show ¬ arg = ['.', '.'] from fun h => hc (.inr h))]
      unfold Shell.cdInto
      exact hopen _ (hstop (hfind _))
    dsimp only
    generalize s.shell.cd arg fuel d = q at h
    obtain ⟨r, d'⟩ := q
    cases h
    rfl
  | dir =>
    have h : (s.shell.dir fuel d).1 = .diverge := by
      unfold Shell.dir
      have e : (do let f ← StM.lift s.shell.last; f.directoryIndex fuel : StM Dev Index) d =
          f.directoryIndex fuel d := by
        rw [StM.bind_apply, StM.lift_apply, hlast]
      rw [e]
      rcases hix with hix | hix
      case inr =>
        generalize f.directoryIndex fuel d = q at hix
        obtain ⟨r, d'⟩ := q
        cases hix
        rfl
      rw [hix]
      dsimp only
      cases fuel with
      | zero => rfl
      | succ k =>
        unfold dirLoop
        generalize IndexEntries.next ix (k + 1) (IndexEntries.new ix, d1) = q at hnext
        obtain ⟨r, it, d'⟩ := q
        cases hnext
        rfl
    dsimp only
    generalize s.shell.dir fuel d = q at h
    obtain ⟨r, l, d'⟩ := q
    cases h
    rfl
  | fileinfo arg =>
    have h := hparse arg hc
    dsimp only
    refine hshown _ ?_
    unfold Shell.fileinfo
    generalize s.shell.parseFileArg arg fuel d = q at h
    obtain ⟨r, d'⟩ := q
    cases h
    rfl
  | get arg =>
    have h : (s.shell.openData (splitStream arg).1 (splitStream arg).2 fuel d).1 = .diverge := by
      refine hstop (hparse _ ?_)
      cases arg with
      | nil => exact absurd (.inl rfl) hc
      | cons x t =>
        have hx : x ≠ ':' := by rintro rfl; exact hc (.inr (.inl ⟨t, rfl⟩))
        have hy : x ≠ '/' := by rintro rfl; exact hc (.inr (.inr ⟨t, rfl⟩))
        simp [splitStream, hx, hy]
    dsimp only
    refine hshown _ ?_
    unfold Shell.getShown
    generalize splitStream arg = p at h
    obtain ⟨file, stream⟩ := p
    dsimp only at h ⊢
    rw [hh]
    generalize s.shell.openData file stream fuel d = q at h
    obtain ⟨r, d'⟩ := q
    cases h
    rfl
  | exit => exact absurd trivial hc
  | fsinfo => exact absurd trivial hc
  | help arg => exact absurd trivial hc
  | nothing => exact absurd trivial hc
  | invalid command => exact absurd trivial hc

/-- **C82**: in a directory whose index leads into records each of which leads into such a record again, through its
last entry, `dir` and everything that searches for a name do not come back: no number of rounds suffices. -/
theorem C82_hangs {s : Session} {f : NFile} (hl : s.shell.stack.head? = some f) {img : Bytes} {k : Nat} {ix : Index}
    {d d1 : Dev} (hd : d1.Ok img) (hix : f.directoryIndex k d = (.ok ix, d1))
    {R : Int → Bytes → Nat → Nat → Prop} (hR : ix.LoadsBy img R) (V : Int → Prop)
    (hV : ∀ v, V v → ∃ b off stop, R v b off stop ∧ LeadsInto V true b off stop)
    (hroot : LeadsInto V true ix.rootRanges.data ix.rootRanges.start ix.rootRanges.stop)
    (c : Command) (hc : ¬ ByNumber c) (hh : ∀ name, s.host.blocked name = false) (fuel : Nat) :
    (s.run fuel c d).1 = .diverge := by
  refine Session.run_hangs hl hd ?_ hR V hV hroot c hc hh
  by_cases h : (f.directoryIndex fuel d).1 = .diverge
  · exact .inr h
  · refine .inl ?_
    rcases Nat.le_total k fuel with hk | hk
    · rw [f.directoryIndex_mono hk d (by rw [hix]; exact fun h => by cases h), hix]
    · rw [← f.directoryIndex_mono hk d h, hix]

/-! ### Examples -/

/-- The file record of the example directory, with a root whose only entry leads to the index record 0. -/
def exLoopRecord : Bytes := exDirRecord.take 120 ++ exLoopRoot ++ exDirRecord.drop 144

def exLoopFile : NFile := ⟨exDirNtfs (some exTable), ⟨exLoopRecord, some 512⟩, 30⟩

def exLoopAlloc : Attr := ⟨exLoopFile, 240, none⟩

/-- The index of that directory. -/
def exLoopDir : Index :=
  ⟨512, ⟨part exLoopRecord 120 120, 0, 120, Pos.add (some 512) 88⟩, Pos.add (some 512) 56,
    some ⟨exLoopFile, none, 240, none⟩⟩

theorem exLoopDir_opens : exLoopAlloc.Opens exLoopImage exLoopStream 1024 := by
  have e : (content 512 exLoopImage [⟨2, some 1⟩]).take 1024 = exLoopStream := by decide +kernel
  have := Attr.opens_nonResident exLoopImage exLoopAlloc
    (by unfold Attr.HeaderIn; show 240 + 16 ≤ exLoopRecord.length; decide +kernel) rfl
    (by show 240 + 56 ≤ exLoopRecord.length; decide +kernel)
    (by show field exLoopRecord 248 1 ≠ 0; decide +kernel) 72 80 1024
    (by show field exLoopRecord 272 2 = _; decide +kernel)
    (by show field exLoopRecord 244 4 = _; decide +kernel)
    (by show 240 + 80 ≤ exLoopRecord.length; decide +kernel) (by decide)
    (by show field exLoopRecord 288 8 = _; decide +kernel) [⟨2, some 1⟩] (by
      have e2 : ((exLoopAlloc.recordData.drop (exLoopAlloc.offset + 72)).take (80 - 72)) =
        [0x11, 2, 1, 0, 0, 0, 0, 0] := by
          show (exLoopRecord.drop 312).take 8 = _; decide +kernel
      rw [e2]
      exact exLoop_stored)
  rw [← e]
  exact this

set_option maxRecDepth 20000 in
theorem exLoopDir_allocated : exLoopDir.Allocated exLoopImage exLoopStream 512 1024 ⟨exLoopFile, none, 240, none⟩
    exLoopAlloc where
  alloc := rfl
  attr := rfl
  ty := rfl
  opens := exLoopDir_opens
  nonRes := .inr ⟨by unfold Attr.HeaderIn; show 240 + 16 ≤ exLoopRecord.length; decide +kernel,
    by show field exLoopRecord 248 1 ≠ 0; decide +kernel⟩
  cs := rfl
  size := by show 512 < U32; decide

set_option maxRecDepth 20000 in
theorem exLoopDir_index_check :
    (match exLoopFile.directoryIndex 5 ⟨exLoopImage, 0, []⟩ with
    | (.ok ix, d) => decide (ix = exLoopDir ∧ d.img = exLoopImage ∧ d.sched = [])
    | _ => false) = true := by decide +kernel

theorem exLoopDir_index : ∃ d, exLoopFile.directoryIndex 5 ⟨exLoopImage, 0, []⟩ = (.ok exLoopDir, d) ∧
    d.Ok exLoopImage := by
  have h := exLoopDir_index_check
  split at h
  · rename_i ix d e
    obtain ⟨rfl, h1, h2⟩ := of_decide_eq_true h
    exact ⟨d, e, h1, fun x h => by rw [h2] at h; cases h⟩
  · cases h

set_option maxRecDepth 20000 in
/-- So the commands that search for a name or list the directory do not come back in it. -/
example (fuel : Nat) (c : Command) (hc : ¬ ByNumber c) :
    (Session.run fuel c ⟨⟨[exLoopFile], [], exLoopFile.ntfs⟩, ⟨[], fun _ => false⟩⟩ ⟨exLoopImage, 0, []⟩).1 =
      .diverge := by
  obtain ⟨d, e, hd⟩ := exLoopDir_index
  refine C82_hangs rfl hd e exLoopDir_allocated.loadsBy (· = 0) ?_ ?_ c hc (fun _ => rfl) fuel
  · intro v hv
    subst hv
    exact ⟨_, _, _, exLoop_record, exLoop_leads⟩
  · show LeadsInto (· = 0) true (part exLoopRecord 120 120) 0 120
    exact ⟨24, 0, by decide +kernel, by decide +kernel,
      { room := by decide +kernel, length := by decide +kernel, flags := by decide +kernel
        vcn := by
          intro v hv
          cases hv
          exact ⟨by decide, by decide, 0, by decide +kernel⟩ }, rfl⟩

/-- `dir` and `cd x` are such commands. -/
example : ¬ ByNumber .dir ∧ ¬ ByNumber (.cd ['x']) ∧ ByNumber (.get "/5:x".toList) := by
  refine ⟨id, ?_, .inr (.inr ⟨_, rfl⟩)⟩
  rintro (h | h) <;> cases h

/-- A volume without attributes of the type $INDEX_ALLOCATION has no cycles. -/
theorem Spec.CycleFree.ofNoAllocation {n : Ntfs} {img : Bytes} (ht : n.upcaseTable = none) (H : Harmless n img)
    (hA : ∀ r, OnDisk n.fileRecordSize img r → ∀ off len, Boundary r.data off → AttrAt r.data off len →
      field r.data off 4 ≠ 0xA0) : CycleFree n img := by
  intro ix hx v _ hv
  have h : ix.Tame ⟨n, img⟩ := hx.tame (n := ⟨n, img⟩) (B := False) H (fun h => h.elim) ht
  have key : ∀ {u w}, ¬ Leads ix img u w := by
    rintro u w ⟨d, sub, d', hd, e, _⟩
    obtain ⟨i, d1, e1, e⟩ := StM.bind_ok_iff.1 e
    obtain ⟨a, d2, e2, e⟩ := StM.bind_ok_iff.1 e
    obtain ⟨x, d3, e3, e⟩ := StM.bind_ok_iff.1 e
    obtain ⟨e1, rfl⟩ : Res.ofOption _ ix.allocationItem = .ok i ∧ d = d1 := Prod.mk.inj e1
    obtain ⟨e2, rfl⟩ : i.toAttribute = .ok a ∧ d = d2 := Prod.mk.inj e2
    have hi : ix.allocationItem = some i := by
      cases ho : ix.allocationItem with
      | none => rw [ho] at e1; cases e1
      | some j => rw [ho] at e1; cases e1; rfl
    rw [(h.item i hi).toAttribute] at e2
    cases e2
    obtain ⟨a, ha, hty⟩ := ((Attr.indexAllocation_tame H (h.item i hi) d hd.1).val x (congrArg Prod.fst e3)).src
    obtain ⟨len, h1⟩ := ha.here
    refine hA _ ha.file.onDisk _ _ ha.bound h1 ?_
    rw [Attr.ty_eq ha.valid.header] at hty
    cases hc : AttrType.ofCode (field a.recordData a.offset 4) with
    | none => rw [hc] at hty; cases hty
    | some t =>
      rw [hc] at hty
      cases hty
      exact AttrType.ofCode_eq_some.1 hc
  obtain ⟨w, h1, _⟩ := Relation.TransGen.head'_iff.1 hv
  exact key h1

theorem exDisk_cycleFree : CycleFree exDiskNtfs exDisk := by
  have h : imageOk 512 512 (fun t => t != 0xA0) exDiskHead = true := by decide +kernel
  refine .ofNoAllocation rfl exDisk_harmless.1 fun r hr off len hb ha => ?_
  simpa using (recordOk_sound (imageOk_sound (by decide) h (exDisk_onDisk hr))).2 off len hb ha

/-- A session on the small volume comes back, whatever is typed. -/
example : ∃ N, ∀ fuel, N ≤ fuel → ∀ (lines : List (Option (List Char))) (host : Host) (d : Dev), d.Ok exDisk →
    (shellMain fuel lines host d).1 ≠ .diverge := by
  obtain ⟨N, h⟩ := C82_shell_partial
  refine ⟨N, fun fuel hf lines host d hd => h fuel hf lines host d hd.calm (by rw [hd.1, exDisk_length]; decide) ?_⟩
  intro n d' e
  obtain ⟨d1, h1⟩ := (C15_accept_iff d hd.2 exDiskNtfs).2 ⟨exGeometry, by rw [hd.1]; exact exDisk_boot, rfl⟩
  rw [h1] at e
  cases e
  rw [hd.1]
  exact exDisk_cycleFree

/-- The session with which it begins consists of handles that a program can get hold of. -/
theorem exDisk_session : Obtained (.volume (exVol (some exTable))) ∧ Obtained (.file exRoot.base) := by
  have hd : Dev.Ok exDisk ⟨exDisk, 0, []⟩ := ⟨rfl, fun _ h => by cases h⟩
  obtain ⟨d', e, hd'⟩ := exDisk_start _ hd
  obtain ⟨n, d1, e1, e⟩ := StM.bind_ok e
  obtain ⟨n', d2, e2, e⟩ := StM.bind_ok e
  obtain ⟨f, d3, e3, e⟩ := StM.bind_ok e
  have hs := Res.ok.inj (Prod.mk.inj e).1
  have hf : f = exRoot.base := List.head_eq_of_cons_eq (congrArg Shell.stack hs)
  have hn : n' = exVol (some exTable) := congrArg Shell.ntfs hs
  subst hf hn
  exact ⟨.upcase (.volume e1) e2, .file (.upcase (.volume e1) e2) e3⟩

/-- So the commands come back in it. -/
example (host : Host) (d : Dev) (fuel : Nat) (h : 2 ^ 97 ≤ fuel) :
    (Session.run fuel (.get "/10:x".toList) ⟨⟨[exRoot.base], [], exVol (some exTable)⟩, host⟩ d).1 ≠ .diverge :=
  C82_numbers _ exDisk_session.1 (fun f hf => by cases List.mem_singleton.1 hf; exact exDisk_session.2)
    (.get "/10:x".toList) (.inr (.inr ⟨_, rfl⟩)) fuel h d

theorem exRoot_dirAcyclic : DirAcyclic exRoot.base exDisk := by
  intro fuel d ix d' _ hd e
  refine exDisk_cycleFree ix (.call (h := .file exRoot.base) ?_ (.directoryIndex fuel hd) ?_)
  · exact exDisk_fit.files _ (List.mem_singleton.2 rfl)
  · rw [e]
    exact List.mem_singleton.2 rfl

/-- The conclusion of `C82_only_cycles` is met by the looping directory. -/
example : ∃ k d1 ix d2 v, d1.Calm ∧ d1.img = exLoopImage ∧ exLoopFile.directoryIndex k d1 = (.ok ix, d2) ∧
    Met ix exLoopImage v ∧ Relation.TransGen (Leads ix exLoopImage) v v := by
  obtain ⟨d2, e, _⟩ := exLoopDir_index
  have hd : Dev.Ok exLoopImage ⟨exLoopImage, 0, []⟩ := ⟨rfl, fun _ h => by cases h⟩
  obtain ⟨len, v, l1, l2, l3, rfl⟩ := exLoop_leads
  obtain ⟨p, dev, e1, _⟩ := (exLoopDir_allocated.loadsBy _ _ _ _ exLoop_record).2 _ hd
  refine ⟨5, _, _, d2, 0, (fun _ h => by cases h), rfl, e, ⟨0, ?_, .refl⟩, .single ⟨_, _, _, hd, e1, .here l1 l2 l3⟩⟩
  show HasSubnode ⟨part exLoopRecord 120 120, 0, 120, _⟩ 0
  exact .here (len := 24) (last := true) (by decide +kernel) (by decide +kernel)
    { room := by decide +kernel, length := by decide +kernel, flags := by decide +kernel
      vcn := by
        intro v hv
        cases hv
        exact ⟨by decide, by decide, 0, by decide +kernel⟩ }

example : ∃ N, ∀ fuel, N ≤ fuel → ∀ (host : Host) (c : Command),
    (Session.run fuel c ⟨⟨[exRoot.base], [], exVol (some exTable)⟩, host⟩ ⟨exDisk, 0, []⟩).1 ≠ .diverge := by
  obtain ⟨N, h⟩ := C82_command_partial
  refine ⟨N, fun fuel hf host c => h fuel hf _ c _ exDisk_session.1 ?_ (fun _ h => by cases h) ?_ ?_⟩
  · intro f hf
    cases List.mem_singleton.1 hf
    exact exDisk_session.2
  · show exDisk.length < U64
    rw [exDisk_length]
    decide
  · intro f hf
    cases hf
    exact exRoot_dirAcyclic

end NT
