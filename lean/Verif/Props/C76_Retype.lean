import Verif.Props.C64_Lines
import Verif.Props.C72_References
import Verif.Props.C75_Text

/-! C76: names that `dir` shows can be given to the other commands. -/

namespace NT

namespace Spec

/-- UTF-16 without unpaired surrogates. -/
inductive WellFormed : List Nat → Prop
  | nil : WellFormed []
  | unit {u s} : u < 0xD800 ∨ 0xE000 ≤ u → WellFormed s → WellFormed (u :: s)
  | pair {u v s} : 0xD800 ≤ u → u < 0xDC00 → 0xDC00 ≤ v → v < 0xE000 → WellFormed s → WellFormed (u :: v :: s)

/-- The entry has the name `u` in the directory. -/
def NameOf (e : Ent) (u : List Nat) : Prop := KeyName e.key u

/-- No other entry of the directory has the name `u` in any spelling. -/
def Alone (tab : List Nat) (t : Node) (e : Ent) (u : List Nat) : Prop :=
  e ∈ t.inorder ∧ ∀ e' ∈ t.inorder, (∃ x, Upper tab u x ∧ UpperName tab e' x) → e' = e

/-- `n` is how `dir` shows the name of the entry, and it can be typed: it has no unpaired surrogates, it neither starts
nor ends with white space, it has no newline, it does not start with a slash, it is not empty, and no other entry has
the same name in any spelling. -/
structure Typable (tab : List Nat) (t : Node) (e : Ent) (n : List Char) : Prop where
  name : ∃ u, NameOf e u ∧ n = lossy u ∧ WellFormed u ∧ Alone tab t e u
  tight : Tight n
  line : OneLine n
  slash : n.head? ≠ some '/'
  some : n ≠ []

/-- The text of a session in which these lines are typed. -/
def typing (ls : List (List Char)) : List Char := ls.flatMap (· ++ ['\n'])

/-- The table tells the replacement character from every surrogate. -/
def Separates (tab : List Nat) : Prop := ∀ c, 0xD800 ≤ c → c < 0xE000 → tab[c]? ≠ tab[0xFFFD]?

end Spec

open Spec

/-! ### Names -/

theorem toNat_ofNat {n : Nat} (h : n < 0xD800 ∨ (0xE000 ≤ n ∧ n < 0x110000)) : (Char.ofNat n).toNat = n := by
  unfold Char.ofNat
  have hv : n.isValidChar := by
    rcases h with h | ⟨h1, h2⟩
    · exact .inl h
    · exact .inr ⟨by omega, h2⟩
  rw [dif_pos hv]
  rfl

theorem utf16_lossy_unit {u : Nat} (s : List Nat) (hu : u < U16) (h : u < 0xD800 ∨ 0xE000 ≤ u) :
    utf16 (lossy (u :: s)) = u :: utf16 (lossy s) := by
  rw [lossy_unit u s h]
  have hv : (Char.ofNat u).toNat = u := toNat_ofNat (by omega)
  simp only [utf16]
  rw [hv, if_pos (by simpa using hu)]

theorem utf16_lossy_pair {u v : Nat} (s : List Nat) (h1 : 0xD800 ≤ u) (h2 : u < 0xDC00) (h3 : 0xDC00 ≤ v)
    (h4 : v < 0xE000) : utf16 (lossy (u :: v :: s)) = u :: v :: utf16 (lossy s) := by
  simp only [lossy]
  rw [if_neg (by omega), if_pos (by omega)]
  simp only [utf16]
  rw [toNat_ofNat (by omega), if_neg (by omega)]
  rw [List.cons.injEq, List.cons.injEq]
  exact ⟨by omega, by omega, rfl⟩

/-- An unpaired surrogate is shown as the replacement character. -/
theorem utf16_lossy_lone {u : Nat} (s : List Nat) (h1 : 0xD800 ≤ u) (h2 : u < 0xE000)
    (h : ¬ (u < 0xDC00 ∧ ∃ v r, s = v :: r ∧ 0xDC00 ≤ v ∧ v < 0xE000)) :
    utf16 (lossy (u :: s)) = 0xFFFD :: utf16 (lossy s) := by
  cases s with
  | nil =>
    simp only [lossy]
    rw [if_pos ⟨h1, h2⟩]
    rfl
  | cons v s =>
    have hn : ¬ (u < 0xDC00 ∧ 0xDC00 ≤ v ∧ v < 0xE000) := fun ⟨g1, g2, g3⟩ => h ⟨g1, v, s, rfl, g2, g3⟩
    simp only [lossy]
    rw [if_neg (by omega), if_neg hn]
    rfl

/-- **C76**, the names that can be typed as they are shown: exactly the ones without unpaired surrogates. -/
theorem C76_lossless (u : List Nat) (hu : Units u) : utf16 (lossy u) = u ↔ WellFormed u := by
  constructor
  · intro h
    generalize hl : u.length = n
    induction n using Nat.strongRecOn generalizing u with
    | _ n ih =>
      cases u with
      | nil => exact .nil
      | cons c s =>
        by_cases hc : c < 0xD800 ∨ 0xE000 ≤ c
        · rw [utf16_lossy_unit s (hu c (by simp)) hc] at h
          injection h with _ h
          exact .unit hc (ih s.length (by simp at hl; omega) s (fun x hx => hu x (by simp [hx])) h rfl)
        · by_cases hp : c < 0xDC00 ∧ ∃ v r, s = v :: r ∧ 0xDC00 ≤ v ∧ v < 0xE000
          · obtain ⟨h1, v, r, rfl, h3, h4⟩ := hp
            rw [utf16_lossy_pair r (by omega) h1 h3 h4] at h
            injection h with _ h
            injection h with _ h
            exact .pair (by omega) h1 h3 h4
              (ih r.length (by simp at hl; omega) r (fun x hx => hu x (by simp [hx])) h rfl)
          · rw [utf16_lossy_lone s (by omega) (by omega) hp] at h
            injection h with h _
            omega
  · intro h
    induction h with
    | nil => rfl
    | unit hc _ ih => rw [utf16_lossy_unit _ (hu _ (by simp)) hc, ih fun x hx => hu x (by simp [hx])]
    | pair h1 h2 h3 h4 _ ih => rw [utf16_lossy_pair _ h1 h2 h3 h4, ih fun x hx => hu x (by simp [hx])]

/-- **C76**: two names without unpaired surrogates are shown differently if they are different. -/
theorem C76_apart (u v : List Nat) (hu : Units u) (hv : Units v) (h1 : WellFormed u) (h2 : WellFormed v)
    (h : lossy u = lossy v) : u = v := by
  rw [← (C76_lossless u hu).2 h1, h, (C76_lossless v hv).2 h2]

/-- A name with an unpaired surrogate is found under what is shown only if the table takes the surrogate for the
replacement character. -/
theorem upper_lossy {tab : List Nat} (hs : Separates tab) (u : List Nat) (hu : Units u) (x : List Nat)
    (h1 : Upper tab (utf16 (lossy u)) x) (h2 : Upper tab u x) : WellFormed u := by
  generalize hl : u.length = n
  induction n using Nat.strongRecOn generalizing u x with
  | _ n ih =>
    cases u with
    | nil => exact .nil
    | cons c s =>
      by_cases hc : c < 0xD800 ∨ 0xE000 ≤ c
      · rw [utf16_lossy_unit s (hu c (by simp)) hc] at h1
        cases h1 with
        | cons a1 b1 =>
          cases h2 with
          | cons a2 b2 => exact .unit hc (ih s.length (by simp at hl; omega) s (fun x hx => hu x (by simp [hx])) _ b1 b2 rfl)
      · by_cases hp : c < 0xDC00 ∧ ∃ v r, s = v :: r ∧ 0xDC00 ≤ v ∧ v < 0xE000
        · obtain ⟨g1, v, r, rfl, g3, g4⟩ := hp
          rw [utf16_lossy_pair r (by omega) g1 g3 g4] at h1
          cases h1 with
          | cons a1 b1 =>
            cases b1 with
            | cons a1 b1 =>
              cases h2 with
              | cons a2 b2 =>
                cases b2 with
                | cons a2 b2 => exact .pair (by omega) g1 g3 g4
                                  (ih r.length (by simp at hl; omega) r (fun x hx => hu x (by simp [hx])) _ b1 b2 rfl)
        · rw [utf16_lossy_lone s (by omega) (by omega) hp] at h1
          cases h1 with
          | cons a1 b1 =>
            cases h2 with
            | cons a2 b2 => exact absurd (a2.trans a1.symm) (hs c (by omega) (by omega))

/-- **C76**, a name with an unpaired surrogate does not stand for its own entry when it is typed as it is shown. -/
theorem C76_surrogate {tab : List Nat} (hs : Separates tab) {e : Ent} {u : List Nat}
    (he : NameOf e u) (h : ¬ WellFormed u) : ¬ ∃ x, Upper tab (utf16 (lossy u)) x ∧ UpperName tab e x := by
  rintro ⟨x, h1, v, hv, h2⟩
  have : u = v := by
    have hl : u.length = v.length := by rw [← he.count, hv.count]
    rw [← u16s_flatMap u he.units, ← he.name, hl, hv.name, u16s_flatMap v hv.units]
  subst this
  exact h (upper_lossy hs u he.units x h1 h2)

/-! ### Lines -/

theorem inputLines_append (x y : List Char) (h : OneLine x) :
    inputLines (x ++ '\n' :: y) = (x ++ ['\n']) :: inputLines y := by
  induction x with
  | nil => simp [inputLines]
  | cons c x ih =>
    have hc : c ≠ '\n' := fun e => h (by simp [e])
    have ih := ih fun hx => h (by simp [hx])
    rw [List.cons_append, inputLines, if_neg hc, ih]
    rfl

theorem inputLines_ends (s : List Char) : ∀ l ∈ inputLines s, OneLine l.dropLast := by
  induction s with
  | nil => intro l hl; cases hl
  | cons c s ih =>
    intro l hl
    unfold inputLines at hl
    split at hl
    · rcases List.mem_cons.1 hl with rfl | hl
      · unfold OneLine
        simp
      · exact ih l hl
    · rename_i hc
      cases hi : inputLines s with
      | nil =>
        rw [hi] at hl
        rw [List.mem_singleton] at hl
        subst hl
        unfold OneLine
        simp
      | cons m ms =>
        rw [hi] at hl ih
        rcases List.mem_cons.1 hl with rfl | hl
        · have h1 := ih m (by simp)
          unfold OneLine at h1 ⊢
          cases m with
          | nil => simp
          | cons x m =>
            rw [List.dropLast_cons_cons, List.mem_cons, not_or]
            exact ⟨fun e => hc e.symm, h1⟩
        · exact ih l (by simp [hl])

/-- **C76**: lines that are typed are read one by one, and only if none of them contains a newline. -/
theorem C76_input (ls : List (List Char)) : inputLines (typing ls) = ls.map (· ++ ['\n']) ↔ ∀ l ∈ ls, OneLine l := by
  constructor
  · intro h l hl
    have := inputLines_ends (typing ls) (l ++ ['\n']) (by rw [h]; exact List.mem_map.2 ⟨l, hl, rfl⟩)
    rwa [List.dropLast_concat] at this
  · intro h
    induction ls with
    | nil => rfl
    | cons l ls ih =>
      have : typing (l :: ls) = l ++ '\n' :: typing ls := by
        unfold typing
        simp
      rw [this, inputLines_append _ _ (h l (by simp)), ih fun x hx => h x (by simp [hx])]
      rfl

/-- **C76**: what the commands get of a line with a word and a name: the name without the white space around it. -/
theorem C76_argument {w : List Char} (hw : Tight w) (hne : w ≠ []) (hs : ' ' ∉ w) (n : List Char) :
    splitCommand (w ++ ' ' :: n ++ ['\n']) = (w, trim n) ∧ (trim n = n ↔ Tight n) := by
  obtain ⟨a, c, ha, hc, ht, e⟩ := trim_split n
  constructor
  · by_cases h0 : trim n = []
    · rw [h0]
      rw [h0, List.append_nil] at e
      have := C58_command_alone (before := []) (after := ' ' :: n ++ ['\n']) (cmd := w) (by intro c hc; cases hc) (by
        intro x hx
        rw [e] at hx
        simp only [List.cons_append, List.mem_cons, List.mem_append, List.not_mem_nil, or_false] at hx
        rcases hx with rfl | (hx | hx) | rfl
        · decide
        · exact ha x hx
        · exact hc x hx
        · decide) hw hs
      simpa using this
    · have := C58_command (before := []) (gap := a) (after := c ++ ['\n']) (cmd := w) (arg := trim n)
        (by intro c hc; cases hc) ha (by
          intro x hx
          rcases List.mem_append.1 hx with hx | hx
          · exact hc x hx
          · rw [List.mem_singleton] at hx
            rw [hx]
            decide) hw hne hs ht h0
      have e2 : w ++ ' ' :: n ++ ['\n'] = [] ++ (w ++ ' ' :: (a ++ trim n)) ++ (c ++ ['\n']) := by
        conv => lhs; rw [e]
        simp
      rw [e2]
      exact this
  · constructor
    · intro h
      rw [← h]
      exact ht
    · intro h
      have := trim_pad (a := []) (c := []) (by intro c hc; cases hc) h (by intro c hc; cases hc)
      simpa using this

theorem typed_name {w n : List Char} (hw : Tight w) (hne : w ≠ []) (hs : ' ' ∉ w) (hn : Tight n) :
    Typed (w ++ ' ' :: n ++ ['\n']) w n := by
  rw [← C64_typed, (C76_argument hw hne hs n).1, (C76_argument hw hne hs n).2.2 hn]

/-! ### Commands -/

theorem alone_names {tab : List Nat} (ht : TableOk tab) {t : Node} {e : Ent} {u : List Nat} (hu : NameOf e u)
    (hw : WellFormed u) (ha : Alone tab t e u) : Names tab t (utf16 (lossy u)) e := by
  rw [(C76_lossless u hu.units).2 hw]
  obtain ⟨x, hx⟩ := upper_exists tab u ht hu.units
  exact ⟨ha.1, ⟨x, hx, u, hu, hx⟩, ha.2⟩

/-- What `dir` shows of an entry is its name. -/
theorem shown_name {e : Ent} {u : List Nat} (h : NameOf e u) : lossy (u16s (lineOf e).2) = lossy u := by
  have : (lineOf e).2 = part e.key 66 (2 * u.length) := by
    unfold lineOf
    rw [h.count]
  rw [this, h.name, u16s_flatMap u h.units]

theorem lossy_ne_nil {u : List Nat} (h : u ≠ []) : lossy u ≠ [] := by
  cases u with
  | nil => exact absurd rfl h
  | cons c s =>
    cases s with
    | nil => simp only [lossy]; split <;> simp
    | cons v s => simp only [lossy]; split <;> (try split) <;> simp

theorem Spec.Typable.denotes {s : Session} {tab : List Nat} {fuel : Nat} {D F : View} {t : Node} (hh : Here s tab fuel D t)
    {e : Ent} {n : List Char} (h : Typable tab t e n) (hF : RecordOf F (leNat e.head % 2 ^ 48)) :
    Denotes s tab D t F n := by
  obtain ⟨u, hu, rfl, hw, ha⟩ := h.name
  exact .name h.some h.slash (alone_names hh.tableOk hu hw ha) hF

theorem tight_fileinfo : Tight "fileinfo".toList ∧ Tight "get".toList ∧ Tight "cd".toList ∧ Tight "attr".toList ∧
    Tight "attr_runs".toList := by
  refine ⟨?_, ?_, ?_, ?_, ?_⟩ <;>
    (constructor <;> (intro c hc; have := Option.some.inj hc; subst this; decide))

/-- **C76**: the name is one that `dir` shows, on the line of the entry. -/
theorem C76_shown {s : Session} {tab : List Nat} {fuel : Nat} {D : View} {t : Node} (hh : Here s tab fuel D t)
    {e : Ent} {n : List Char} (h : Typable tab t e n) : ∃ (out : List TermLine) (i : Nat) (name : Bytes),
    Answers fuel D.img s ("dir".toList ++ ['\n']) out s ∧ t.inorder[i]? = some e ∧
      out[i]? = some (.entry ((field e.key 56 4).testBit 28) name) ∧ lossy (u16s name) = n := by
  obtain ⟨u, hu, rfl, hw, ha⟩ := h.name
  obtain ⟨i, hi⟩ := List.getElem?_of_mem ha.1
  exact ⟨_, i, (lineOf e).2, C64_dir hh (a := []) ((C64_typed _ _ _).1 (by decide)), hi,
    by rw [List.getElem?_map, hi]; rfl, shown_name hu⟩

/-- **C76** (partial: only for names that can be typed, see `C76_slash`, `C76_argument`, `C76_surrogate` and
`C76_input` for the others): a user types `dir`, then `fileinfo` and a name that `dir` showed. The first prompt is
followed by exactly the entries, and the second by what `fileinfo` shows of the file that the entry of this name
refers to. -/
theorem C76_fileinfo_partial {s : Session} {tab : List Nat} {fuel : Nat} {D F : View} {t : Node}
    (hh : Here s tab fuel D t) {e : Ent} {n : List Char} (h : Typable tab t e n)
    (hF : RecordOf F (leNat e.head % 2 ^ 48)) (hm : HasMft F) (hFn : F.ntfs = s.shell.ntfs)
    (hFi : F.img = D.img) {steps : List Step} {r : Res (Option AttrItem)} (hfl : Flattened F steps r)
    (hs : ∀ s ∈ steps, ∀ file off, s.At F file off → Showable file off) (hf : steps.length < fuel)
    {l : List InfoLine} (hl : Listing F r steps l (.ok ())) (d : Dev) (hd : d.Ok D.img) :
    (Session.loop fuel ((inputLines (typing ["dir".toList, "fileinfo ".toList ++ n])).map some) s d).2.1 =
      .prompt s.shell.path :: ((t.inorder.map fun e => .entry (lineOf e).1 (lineOf e).2) ++
        .prompt s.shell.path :: ((headerLine F.base :: l).map .info ++ [.prompt s.shell.path])) := by
  rw [(C76_input _).2 (by
    intro x hx
    simp only [List.mem_cons, List.not_mem_nil, or_false] at hx
    rcases hx with rfl | rfl
    · unfold OneLine; decide
    · rw [oneLine_append]
      exact ⟨by unfold OneLine; decide, h.line⟩)]
  obtain ⟨d1, hd1, e1⟩ := C64_dir hh (line := "dir".toList ++ ['\n']) (a := []) ((C64_typed _ _ _).1 (by decide)) d hd
  obtain ⟨d2, hd2, e2⟩ := (C64_fileinfo hh hm hFn hFi (line := "fileinfo ".toList ++ n ++ ['\n'])
    (typed_name (w := "fileinfo".toList) tight_fileinfo.1 (by decide) (by decide) h.tight)
    (h.denotes hh hF) hfl hs hf).1 l hl d1 hd1
  rw [List.map_cons, List.map_cons, e1, List.map_cons, List.map_cons, e2]
  rfl

/-- **C76** (partial, as before), `attr` and `attr_runs`: the table of the attributes of the file that the entry
refers to. -/
theorem C76_attr_partial {s : Session} {tab : List Nat} {D F : View} {t : Node} {e : Ent} {n : List Char}
    (h : Typable tab t e n) (hF : RecordOf F (leNat e.head % 2 ^ 48)) (hm : HasMft F) (hFn : F.ntfs = s.shell.ntfs)
    (hFi : F.img = D.img) {w : Bool} {offs : List Nat} {fin : Nat} (ht : Tabular w F offs fin) {l : List AttrLine}
    (htab : Table w F fin offs l (.ok ())) (htk : TableOk tab) :
    ∃ n0, ∀ fuel ≥ n0, Here s tab fuel D t →
      Answers fuel D.img s ((if w then "attr_runs".toList else "attr".toList) ++ ' ' :: n ++ ['\n']) (l.map .attr) s := by
  obtain ⟨u, hu, hn, hw, ha⟩ := h.name
  have hd : Denotes s tab D t F n := by
    rw [hn]
    exact .name (hn ▸ h.some) (hn ▸ h.slash) (alone_names htk hu hw ha) hF
  obtain ⟨n0, h0⟩ := C64_attr (s := s) hm hFn hFi (w := w)
    (line := (if w then "attr_runs".toList else "attr".toList) ++ ' ' :: n ++ ['\n'])
    (typed_name (by cases w; exacts [tight_fileinfo.2.2.2.1, tight_fileinfo.2.2.2.2]) (by cases w <;> decide)
      (by cases w <;> decide) h.tight) hd ht htab
  exact ⟨n0, fun fuel hf hh => (h0 fuel hf hh).1 rfl⟩

/-- **C76** (partial, and the name must not contain a colon, see `C76_colon`), `get`: the bytes of the unnamed data
stream of the file that the entry refers to end up on the host, in a file of the name that was shown. -/
theorem C76_get_partial {s : Session} {tab : List Nat} {fuel : Nat} {D F : View} {t : Node}
    (hh : Here s tab fuel D t) {e : Ent} {n : List Char} (h : Typable tab t e n) (hc : ':' ∉ n)
    (hF : RecordOf F (leNat e.head % 2 ^ 48)) (hm : HasMft F) (hFn : F.ntfs = s.shell.ntfs)
    (hFb : F.base.ntfs = F.ntfs) (hFi : F.img = D.img) {steps : List Step} {r : Res (Option AttrItem)}
    (hfl : Flattened F steps r) (hf : steps.length < fuel) (hfree : s.host.blocked n = false)
    {c : Bytes} {size : Nat} (hst : StreamOf F steps [] c size) (hcf : c.length < fuel) :
    Answers fuel D.img s ("get ".toList ++ n ++ ['\n']) [.saving size n]
      { s with host := { s.host with files := s.host.files ++ [(n, c)] } } := by
  have h2 := (C58_stream n [] hc).2
  have h3 : outputName n [] = n := rfl
  have := (C64_get hh hm hFn hFb hFi (line := "get ".toList ++ n ++ ['\n']) (arg := n)
    (typed_name (w := "get".toList) tight_fileinfo.2.1 (by decide) (by decide) h.tight)
    (by rw [h2]; exact h.denotes hh hF) hfl hf (by rw [h2]; exact hfree)).1 c size (by rw [h2]; exact hst) hcf
  rw [h2] at this
  exact this

/-- **C76** (partial, and the name must not be `..`), `cd`: a name with the marker of a directory leads into the
directory that the entry refers to. Here the slash at the start does no harm. -/
theorem C76_cd_partial {s : Session} {tab : List Nat} {fuel : Nat} {D F : View} {t : Node}
    (hh : Here s tab fuel D t) {e : Ent} {u : List Nat} (hu : NameOf e u) (hw : WellFormed u) (ha : Alone tab t e u)
    (hne : u ≠ []) (htn : Tight (lossy u)) (hup : lossy u ≠ ['.', '.'])
    (hdir : (lineOf e).1 = true) (hF : RecordOf F (leNat e.head % 2 ^ 48)) (hm : HasMft F)
    (hFn : F.ntfs = s.shell.ntfs) (hFi : F.img = D.img)
    {fsteps : List Step} {r : Res (Option AttrItem)} (hfl : Flattened F fsteps r)
    (hpl : ∀ s ∈ fsteps, ∀ file off, s.At F file off → field file.recordData off 4 = 0x30 → Placed file off)
    (hcl : CleanNames F fsteps r) {b : FileName} (hbn : BestNamed F fsteps D.base.fileRecordNumber b)
    (hf3 : fsteps.length < fuel) :
    Answers fuel D.img s ("cd ".toList ++ lossy u ++ ['\n']) []
      { s with shell := { s.shell with
        path := extendPath s.shell.path (lossy (u16s b.name)), stack := F.base :: s.shell.stack } } := by
  obtain ⟨rest, ht⟩ := hh.top
  obtain ⟨steps, hD, hf⟩ := hh.dir
  have hfu := hh.fuel
  have hl : Typed ("cd ".toList ++ lossy u ++ ['\n']) "cd".toList (lossy u) :=
    typed_name (w := "cd".toList) tight_fileinfo.2.2.1 (by decide) (by decide) htn
  refine Answers.of_run hh.size (not_ends_of hl .cd (by decide) (fun h => by cases h)) (parse_eq hl .cd) fun d hd => ?_
  obtain ⟨d', e1, _⟩ := C59_cd s.shell ht hD hh.table hh.tableOk (lossy u) (lossy_ne_nil hne) hup
    (alone_names hh.tableOk hu hw ha) hdir hF hm hFn hFi hfl hpl hcl hbn fuel hf (by omega) hf3 d hd
  refine ⟨d', ?_⟩
  unfold Session.run
  dsimp only
  rw [e1]
  rfl

/-! ### The other names -/

/-- **C76**, a name with a slash at its start: `attr`, `attr_runs`, `fileinfo` and `get` never look it up. What they
open does not depend on the current directory; it is a record, if a number follows the slash, and nothing
otherwise. -/
theorem C76_slash (s s' : Shell) (h : s'.ntfs = s.ntfs) (n : List Char) (fuel fuel' : Nat) (d : Dev) :
    s'.parseFileArg ('/' :: n) fuel' d = s.parseFileArg ('/' :: n) fuel d ∧
    (parseRecordNumber n = none → s.parseFileArg ('/' :: n) fuel d = (.ok (.error (.badRecordNumber n)), d)) ∧
    (∀ k f d', parseRecordNumber n = some k → s.parseFileArg ('/' :: n) fuel d = (.ok (.ok f), d') →
      f.fileRecordNumber = k) := by
  have hst : stripPrefix ['/'] ('/' :: n) = some n := by
    unfold stripPrefix
    simp
  refine ⟨?_, ?_, ?_⟩
  · unfold Shell.parseFileArg
    rw [hst]
    dsimp only
    rw [h]
  · intro hp
    unfold Shell.parseFileArg
    rw [if_neg (by simp), hst]
    dsimp only
    rw [hp]
    rfl
  · intro k f d' hp hr
    unfold Shell.parseFileArg at hr
    rw [if_neg (by simp), hst] at hr
    dsimp only at hr
    rw [hp] at hr
    dsimp only at hr
    rw [StM.bind_ok_iff] at hr
    obtain ⟨g, d1, h1, h2⟩ := hr
    cases h2
    exact (Ntfs.file_number h1).2.1

/-- **C76**, a name with a colon: `get` takes what is before the first colon for the name. If there is no such entry,
then the file cannot be copied, and an empty file is left on the host. -/
theorem C76_colon {s : Session} {tab : List Nat} {fuel : Nat} {D : View} {t : Node} (hh : Here s tab fuel D t)
    {a b : List Char} (ha : ':' ∉ a) (htn : Tight (a ++ ':' :: b)) (hne : a ≠ []) (hsl : a.head? ≠ some '/')
    (hno : ∀ e ∈ t.inorder, ¬ ∃ u, Upper tab (utf16 a) u ∧ UpperName tab e u)
    (hfree : s.host.blocked (outputName a b) = false) :
    Answers fuel D.img s ("get ".toList ++ (a ++ ':' :: b) ++ ['\n']) [.error (.shell (.noSuchFile a))]
      { s with host := { s.host with files := s.host.files ++ [(outputName a b, [])] } } := by
  have h2 := (C58_stream a b ha).1
  have := C64_get_no_file hh (line := "get ".toList ++ (a ++ ':' :: b) ++ ['\n']) (arg := a ++ ':' :: b)
    (typed_name (w := "get".toList) tight_fileinfo.2.1 (by decide) (by decide) htn) (m := .noSuchFile a)
    (by rw [h2]; exact .name a hne hsl hno) (by rw [h2]; exact hfree)
  rw [h2] at this
  exact this

/-- **C76**, a name with an unpaired surrogate, or with white space at an end: if no entry has the name that is
really looked up, then the file that `dir` shows is said not to exist. -/
theorem C76_unknown {s : Session} {tab : List Nat} {fuel : Nat} {D : View} {t : Node} (hh : Here s tab fuel D t)
    {n w : List Char} (hw : w ∈ ["attr".toList, "attr_runs".toList, "fileinfo".toList])
    (hne : trim n ≠ []) (hsl : (trim n).head? ≠ some '/')
    (hno : ∀ e ∈ t.inorder, ¬ ∃ u, Upper tab (utf16 (trim n)) u ∧ UpperName tab e u) :
    Answers fuel D.img s (w ++ ' ' :: n ++ ['\n']) [.error (.shell (.noSuchFile (trim n)))] s := by
  refine C64_no_file hh hw ?_ (.name _ hne hsl hno)
  rw [← C64_typed]
  simp only [List.mem_cons, List.not_mem_nil, or_false] at hw
  rcases hw with rfl | rfl | rfl
  · exact (C76_argument tight_fileinfo.2.2.2.1 (by decide) (by decide) n).1
  · exact (C76_argument tight_fileinfo.2.2.2.2 (by decide) (by decide) n).1
  · exact (C76_argument tight_fileinfo.1 (by decide) (by decide) n).1

/-- The record of a directory with a single file, `/x<DIR>  b`. -/
def exSlashRecord : Bytes :=
  let i := exTrickRecord.findIdx (· = 97)
  exTrickRecord.take i ++ [47, 0, 120, 0] ++ exTrickRecord.drop (i + 4)

def exSlashShell : Shell := ⟨[⟨exTrickNtfs, ⟨exSlashRecord, some 512⟩, 5⟩], [], exTrickNtfs⟩

/-- **C76** does not hold for all names: there is a directory with a single file, and its name, typed as `dir` shows
it, is not accepted by any command that opens a file. -/
theorem C76_negation : ∃ (s : Shell) (d : Dev) (name : Bytes), (s.dir 10 d).1 = .ok () ∧
    (s.dir 10 d).2.1 = [(false, name)] ∧ Tight (lossy (u16s name)) ∧ WellFormed (u16s name) ∧
    ∃ n, s.parseFileArg (lossy (u16s name)) 10 d = (.ok (.error (.badRecordNumber n)), d) := by
  have hu : Spec.Units [47, 120, 60, 68, 73, 82, 62, 32, 32, 98] := by unfold Spec.Units; decide
  refine ⟨exSlashShell, ⟨[], 0, []⟩, [47, 0, 120, 0, 60, 0, 68, 0, 73, 0, 82, 0, 62, 0, 32, 0, 32, 0, 98, 0], ?_, ?_, ?_,
    ?_, "x<DIR>  b".toList, ?_⟩
  · decide +kernel
  · decide +kernel
  · constructor <;> (intro c hc; have := Option.some.inj hc; subst this; decide)
  · exact (C76_lossless _ hu).1 (by decide)
  · exact (C76_slash _ exSlashShell rfl _ 10 10 _).2.1 (by decide)

/-! ### The hypotheses are met: names of the example volume -/

theorem exKey_file : NameOf exEntFile [102] := by
  refine ⟨?_, ?_, ?_, ?_, ?_, ?_⟩
  · intro c hc
    rw [List.mem_singleton] at hc
    subst hc
    decide
  all_goals decide +kernel

theorem exTypable : Typable exTable exRootTree exEntFile "f".toList where
  name := ⟨[102], exKey_file, by decide, .unit (by decide) .nil, exNames_file.mem, fun e' he ⟨x, h1, h2⟩ =>
    exNames_file.only e' he ⟨x, by
      have h3 := upper_unique h1 (exUpper 102 (by decide) .nil)
      rw [h3]
      exact exUpper 70 (by decide) .nil, h2⟩⟩
  tight := by constructor <;> (intro c hc; have := Option.some.inj hc; subst this; decide)
  line := by unfold OneLine; decide
  slash := by decide
  some := by decide

/-- The session `dir`, `fileinfo f` on the example volume. -/
example (d : Dev) (hd : d.Ok exDisk) :=
  C76_fileinfo_partial exHere exTypable (exRec_records _).2.2.2 (exRec_hasMft _ _ _ _) rfl rfl exFile_flattened
    exFile_showable (by decide) exFile_listing d hd

example := C76_shown exHere exTypable

example := C76_attr_partial (s := exSession) (D := exRoot) (F := exFile) (w := true) exTypable (exRec_records _).2.2.2
  (exRec_hasMft _ _ _ _) rfl rfl exFile_tabular exFile_table exTable_ok

example : Answers 2000 exDisk exSession "get f\n".toList [.saving 1100 "f".toList]
    { exSession with host := ⟨[("G".toList, [1]), ("f".toList, exFileBytes)], fun _ => false⟩ } :=
  C76_get_partial (F := exFile) exHere exTypable (by decide) (exRec_records _).2.2.2 (exRec_hasMft _ _ _ _) rfl rfl rfl
    exFile_flattened (by decide) rfl exFile_unnamed (by decide +kernel)

theorem exKey_sub : NameOf exEntSub [97, 92, 98] := by
  refine ⟨?_, ?_, ?_, ?_, ?_, ?_⟩
  · intro c hc
    simp only [List.mem_cons, List.not_mem_nil, or_false] at hc
    rcases hc with rfl | rfl | rfl <;> decide
  all_goals decide +kernel

example : Answers 2000 exDisk exSession "cd a\\b\n".toList []
    { exSession with shell := ⟨[exSub.base, exRoot.base], "a\\b".toList, exVol (some exTable)⟩ } := by
  obtain ⟨hp1, hp2, hp3⟩ := exSub_named
  have := C76_cd_partial (F := exSub) exHere exKey_sub (.unit (by decide) (.unit (by decide) (.unit (by decide) .nil)))
    ⟨exNames_sub.mem, exNames_sub.only⟩ (by decide)
    (by constructor <;> (intro c hc; have := Option.some.inj hc; subst this; decide)) (by decide) (by decide +kernel)
    (exRec_records _).2.2.1 (exRec_hasMft _ _ _ _) rfl rfl exSub_flattened hp1 hp2 hp3 (by decide)
  have he : extendPath [] (lossy (u16s exSubName.name)) = "a\\b".toList := by decide +kernel
  rw [show exSession.shell.path = [] from rfl, he] at this
  exact this

example : WellFormed [0x61, 0xD83D, 0xDE00] := .unit (by decide) (.pair (by decide) (by decide) (by decide) (by decide) .nil)
example : ¬ WellFormed [0xD83D, 0x61] := by
  rw [← C76_lossless _ (by unfold Spec.Units; decide)]
  decide
example := C76_apart [0x61] [0x61] (by unfold Spec.Units; decide) (by unfold Spec.Units; decide) (.unit (by decide) .nil) (.unit (by decide) .nil) rfl
example : inputLines (typing ["dir".toList, "cd a".toList]) = ["dir\n".toList, "cd a\n".toList] :=
  (C76_input _).2 (by unfold OneLine; decide)
example : splitCommand ("fileinfo".toList ++ ' ' :: " a  b ".toList ++ ['\n']) = ("fileinfo".toList, "a  b".toList) :=
  (C76_argument tight_fileinfo.1 (by decide) (by decide) _).1.trans (by decide)
example (d : Dev) : (Shell.mk [exRoot.base] [] (exVol (some exTable))).parseFileArg "/x".toList 5 d =
    (.ok (.error (.badRecordNumber ['x'])), d) :=
  (C76_slash _ (Shell.mk [] [] (exVol (some exTable))) rfl ['x'] 5 5 d).2.1 (by decide)
example : Answers 2000 exDisk exSession "get g:s\n".toList [.error (.shell (.noSuchFile ['g']))]
    { exSession with host := ⟨[("G".toList, [1]), ("g_s".toList, [])], fun _ => false⟩ } :=
  C76_colon exHere (a := ['g']) (b := ['s']) (by decide)
    (by constructor <;> (intro c hc; have := Option.some.inj hc; subst this; decide)) (by decide) (by decide) exNo_g rfl
example : Answers 2000 exDisk exSession "attr  g \n".toList [.error (.shell (.noSuchFile ['g']))] exSession :=
  C76_unknown exHere (n := " g ".toList) (w := "attr".toList) (by decide) (by decide) (by decide) exNo_g

/-- An entry whose name is a single unpaired surrogate. -/
def exLone : Ent := ⟨[], List.replicate 64 0 ++ [1, 0, 0, 0xD8]⟩

theorem exTable_separates : Separates exTable := by
  intro c h1 h2 h
  rw [exTable_get c (by omega), exTable_get 0xFFFD (by decide)] at h
  simp only [Option.some.injEq] at h
  rw [if_neg (by omega), if_neg (by omega)] at h
  omega

example : ¬ ∃ x, Upper exTable (utf16 (lossy [0xD800])) x ∧ UpperName exTable exLone x :=
  C76_surrogate exTable_separates ⟨by unfold Spec.Units; decide, by decide, by decide, by decide, by decide, by decide⟩ (by
    rw [← C76_lossless _ (by unfold Spec.Units; decide)]
    decide)

end NT
