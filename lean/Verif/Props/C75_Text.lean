import Verif.Model.ShellText
import Verif.Props.C58_CommandLine
import Verif.Props.C74_Flags
import Verif.Lemmas.Returns

/-! C75: what can be read from the text that the commands of the example shell print. -/

namespace NT

namespace Spec

/-- The lines of a text in which every line is ended by a newline; `cur` is the start of the first one. -/
def linesFrom (cur : List Char) : List Char → List (List Char)
  | [] => []
  | c :: s => if c = '\n' then cur :: linesFrom [] s else linesFrom (cur ++ [c]) s

/-- The lines of a text. -/
def linesOf (s : List Char) : List (List Char) := linesFrom [] s

/-- How a user reads a line of `dir`: a directory has `<DIR>` in front. -/
def readDir (line : List Char) : Option (Bool × List Char) :=
  if line.take 7 = ['<', 'D', 'I', 'R', '>', ' ', ' '] then some (true, line.drop 7)
  else if line.take 7 = List.replicate 7 ' ' then some (false, line.drop 7) else none

/-- A decimal number. -/
def Decimal (s : List Char) (n : Nat) : Prop := s ≠ [] ∧ Numeral 10 s n

/-- A hexadecimal number. -/
def Hexadecimal (s : List Char) (n : Nat) : Prop := ∃ t, s = '0' :: 'x' :: t ∧ t ≠ [] ∧ Numeral 16 t n

/-- A byte position. -/
def Whereabouts (s : List Char) : Pos → Prop
  | some n => Hexadecimal s n
  | none => s = ['<', 'N', 'O', 'N', 'E', '>']

/-- A line gives a value for a label, which is followed by spaces. -/
def Says (line : List Char) (label : String) (value : List Char → Prop) : Prop :=
  ∃ k v, 0 < k ∧ line = label.toList ++ List.replicate k ' ' ++ v ∧ value v

/-- No newline. -/
def OneLine (s : List Char) : Prop := '\n' ∉ s

end Spec

open Spec

/-! ### Lines -/

theorem linesFrom_append (l : List Char) (hl : OneLine l) (cur s : List Char) :
    linesFrom cur (l ++ '\n' :: s) = (cur ++ l) :: linesFrom [] s := by
  induction l generalizing cur with
  | nil => simp [linesFrom]
  | cons c l ih =>
    have hc : c ≠ '\n' := fun h => hl (by rw [h]; exact List.mem_cons_self)
    rw [List.cons_append, linesFrom, if_neg hc, ih (fun h => hl (List.mem_cons_of_mem _ h))]
    simp

/-- **C75**: lines without newlines in them are read as they were printed. -/
theorem C75_lines (ls : List (List Char)) (h : ∀ l ∈ ls, OneLine l) : linesOf (stdout ls) = ls := by
  induction ls with
  | nil => rfl
  | cons l ls ih =>
    have : stdout (l :: ls) = l ++ '\n' :: stdout ls := by simp [stdout]
    rw [this, linesOf, linesFrom_append l (h l List.mem_cons_self), List.nil_append]
    exact congrArg _ (ih fun x hx => h x (List.mem_cons_of_mem _ hx))

theorem stdout_inj {a b : List (List Char)} (ha : ∀ l ∈ a, OneLine l) (hb : ∀ l ∈ b, OneLine l)
    (h : stdout a = stdout b) : a = b := by
  rw [← C75_lines a ha, h, C75_lines b hb]

/-! ### Texts without newlines -/

theorem oneLine_append {a b : List Char} : OneLine (a ++ b) ↔ OneLine a ∧ OneLine b := by
  simp [OneLine, not_or]

theorem oneLine_cons {c : Char} {a : List Char} : OneLine (c :: a) ↔ c ≠ '\n' ∧ OneLine a := by
  simp [OneLine, not_or, eq_comm]

theorem oneLine_nil : OneLine [] := List.not_mem_nil

theorem oneLine_replicate {n : Nat} {c : Char} (h : c ≠ '\n') : OneLine (List.replicate n c) :=
  fun hm => h (List.mem_replicate.1 hm).2.symm

theorem oneLine_dec (n : Nat) : OneLine (dec n) := by
  intro h
  have := dec_digit n h
  revert this; decide

theorem oneLine_lowerHex (n : Nat) : OneLine (lowerHex n) := by
  intro h
  have := lowerHex_digit n h
  revert this; decide

theorem oneLine_hexAlt (w n : Nat) : OneLine (hexAlt w n) := by
  unfold hexAlt
  rw [oneLine_cons, oneLine_cons, oneLine_append]
  exact ⟨by decide, by decide, oneLine_replicate (by decide), oneLine_lowerHex n⟩

theorem oneLine_none : OneLine "<NONE>".toList := by unfold OneLine; decide

theorem oneLine_posHex (p : Pos) : OneLine (posHex p) := by
  cases p with
  | none => exact oneLine_none
  | some n => exact oneLine_hexAlt 0 n

theorem oneLine_optText (o : Option Nat) : OneLine (optText o) := by
  cases o with
  | none => exact oneLine_none
  | some n => exact oneLine_dec n

theorem oneLine_padRight {w : Nat} {s : List Char} : OneLine (padRight w s) ↔ OneLine s := by
  unfold padRight
  rw [oneLine_append]
  exact ⟨fun h => h.1, fun h => ⟨h, oneLine_replicate (by decide)⟩⟩

theorem oneLine_padLeft {w : Nat} {s : List Char} : OneLine (padLeft w s) ↔ OneLine s := by
  unfold padLeft
  rw [oneLine_append]
  exact ⟨fun h => h.2, fun h => ⟨oneLine_replicate (by decide), h⟩⟩

theorem oneLine_quoted {s : List Char} : OneLine (quoted s) ↔ OneLine s := by
  unfold quoted
  rw [oneLine_cons, oneLine_append]
  exact ⟨fun h => h.2.1, fun h => ⟨by decide, h, by unfold OneLine; decide⟩⟩

theorem oneLine_debug (t : AttrType) : OneLine t.debug := by
  cases t <;> (unfold OneLine AttrType.debug; decide)

theorem oneLine_bool (b : Bool) : OneLine (boolText b) := by
  cases b <;> (unfold OneLine boolText; decide)

theorem oneLine_bar : OneLine [' ', '|', ' '] := by unfold OneLine; decide

theorem oneLine_iterNames (x : Nat) : ∀ (t : FlagTable), (∀ e ∈ t, OneLine e.1) → ∀ r, ∀ w ∈ (iterNames x t r).1, OneLine w
  | [], _, r => by intro w hw; simp [iterNames] at hw
  | (n, b) :: t, h, r => by
    intro w hw
    rw [iterNames] at hw
    split at hw
    · cases hw
    · split at hw
      · rcases List.mem_cons.1 hw with rfl | hw
        · exact h _ List.mem_cons_self
        · exact oneLine_iterNames x t (fun e he => h e (List.mem_cons_of_mem _ he)) _ w hw
      · exact oneLine_iterNames x t (fun e he => h e (List.mem_cons_of_mem _ he)) _ w hw

theorem oneLine_writeNames : ∀ (ws : List (List Char)), (∀ w ∈ ws, OneLine w) → ∀ b, OneLine (writeNames b ws).1
  | [], _, b => oneLine_nil
  | w :: ws, h, b => by
    rw [writeNames]
    dsimp only
    rw [oneLine_append, oneLine_append]
    refine ⟨⟨?_, h w List.mem_cons_self⟩, oneLine_writeNames ws (fun v hv => h v (List.mem_cons_of_mem _ hv)) false⟩
    cases b
    · exact oneLine_bar
    · exact oneLine_nil

theorem oneLine_flags (t : FlagTable) (h : ∀ e ∈ t, OneLine e.1) (x : Nat) : OneLine (flagsDisplay t x) := by
  unfold flagsDisplay
  dsimp only
  have h1 := oneLine_writeNames _ (oneLine_iterNames x t h x) true
  split
  · exact h1
  · rw [oneLine_append, oneLine_append, oneLine_cons, oneLine_cons]
    refine ⟨⟨h1, ?_⟩, by decide, by decide, oneLine_lowerHex _⟩
    split
    · exact oneLine_nil
    · exact oneLine_bar

theorem oneLine_fileAttributes (x : Nat) : OneLine (flagsDisplay fileAttributeTable x) :=
  oneLine_flags _ (by unfold OneLine fileAttributeTable; decide) x

theorem oneLine_labelled {w : Nat} {l : String} {v : List Char} (hl : OneLine l.toList) (hv : OneLine v) :
    OneLine (labelled w l v) := by
  unfold labelled
  rw [oneLine_append, oneLine_padRight]
  exact ⟨hl, hv⟩

/-! ### `dir` -/

theorem oneLine_dirText (b : Bool) (n : Bytes) (h : OneLine (lossy (u16s n))) : OneLine (dirText b n) := by
  unfold dirText
  rw [oneLine_append, oneLine_padRight, oneLine_cons, oneLine_cons]
  exact ⟨by cases b <;> (unfold OneLine; decide), by decide, by decide, h⟩

theorem readDir_dirText (b : Bool) (n : Bytes) : readDir (dirText b n) = some (b, lossy (u16s n)) := by
  cases b <;> rfl

/-- **C75** (partial: only if no name contains a newline, see `C75_dir_negation`): the text of `dir` gives the entries
in their order, one in a line, and of each whether it is a directory and its name. -/
theorem C75_dir_partial (l : List (Bool × Bytes)) (h : ∀ e ∈ l, OneLine (lossy (u16s e.2))) :
    (linesOf (dirStdout l)).map readDir = l.map fun e => some (e.1, lossy (u16s e.2)) := by
  unfold dirStdout
  rw [C75_lines _ (by
    intro x hx
    obtain ⟨e, he, rfl⟩ := List.mem_map.1 hx
    exact oneLine_dirText _ _ (h e he)), List.map_map]
  exact List.map_congr_left fun e _ => readDir_dirText e.1 e.2

/-! ### Numbers -/

theorem Numeral_dec (n : Nat) : Numeral 10 (dec n) n := by
  induction n using Nat.strongRecOn with
  | _ n ih =>
    rw [dec]
    have digit : ∀ k, k < 10 → IsDigit 10 (Char.ofNat (48 + k)) k := fun k hk =>
      ⟨hk, .inl ⟨char_toNat_ofNat (by omega), hk⟩⟩
    split
    · next h =>
      have := Numeral.snoc Numeral.nil (digit n h)
      simpa using this
    · next h =>
      have := Numeral.snoc (ih (n / 10) (by omega)) (digit (n % 10) (Nat.mod_lt _ (by decide)))
      rwa [Nat.mul_comm, Nat.div_add_mod] at this

theorem Numeral_lowerHex (n : Nat) : Numeral 16 (lowerHex n) n := by
  induction n using Nat.strongRecOn with
  | _ n ih =>
    rw [lowerHex]
    have digit : ∀ k, k < 16 → IsDigit 16 (lowerDigit k) k := by
      intro k hk
      refine ⟨hk, ?_⟩
      unfold lowerDigit
      split
      · next h => exact .inl ⟨char_toNat_ofNat (by omega), h⟩
      · next h => exact .inr ⟨by omega, .inl (char_toNat_ofNat (by omega))⟩
    split
    · next h =>
      have := Numeral.snoc Numeral.nil (digit n h)
      simpa using this
    · next h =>
      have := Numeral.snoc (ih (n / 16) (by omega)) (digit (n % 16) (Nat.mod_lt _ (by decide)))
      rwa [Nat.mul_comm, Nat.div_add_mod] at this

theorem decimal_dec (n : Nat) : Decimal (dec n) n := ⟨dec_ne_nil n, Numeral_dec n⟩

theorem hexadecimal_hexAlt (n : Nat) : Hexadecimal (hexAlt 0 n) n := by
  refine ⟨lowerHex n, ?_, lowerHex_ne_nil n, Numeral_lowerHex n⟩
  simp [hexAlt]

theorem place_posHex (p : Pos) : Whereabouts (posHex p) p := by
  cases p with
  | none => rfl
  | some n => exact hexadecimal_hexAlt n

/-- **C75**: a record number is understood as it is shown: `/` and the hexadecimal number that `fileinfo` and `attr` print
name the record with this number, and so do `/` and the number in decimal. -/
theorem C75_record_number (s : Shell) (n : Nat) (hn : n < U64) (shown : List Char)
    (h : shown = hexAlt 0 n ∨ Decimal shown n) (fuel : Nat) (d : Dev) :
    s.parseFileArg ('/' :: shown) fuel d =
      match s.ntfs.file n d with
      | (.ok f, d') => (.ok (.ok f), d')
      | (.err e, d') => (.err e, d')
      | (.panic p, d') => (.panic p, d')
      | (.diverge, d') => (.diverge, d') := by
  have hp : parseRecordNumber shown = some n := by
    rw [C58_record_number]
    rcases h with rfl | h
    · obtain ⟨t, h1, h2, h3⟩ := hexadecimal_hexAlt n
      exact ⟨hn, t, h2, .inl ⟨.inl h1, h3⟩⟩
    · exact ⟨hn, shown, h.1, .inr ⟨.inl rfl, h.2⟩⟩
  unfold Shell.parseFileArg
  rw [if_neg (List.cons_ne_nil _ _)]
  have hs : stripPrefix ['/'] ('/' :: shown) = some shown := (stripPrefix_iff _ _ _).2 rfl
  rw [hs]
  dsimp only
  rw [hp]
  dsimp only [bind, StM.bind]
  cases hf : s.ntfs.file n d with
  | mk r d' => cases r <;> rfl

/-! ### `attr` -/

theorem cut_at {x : Char} {a b a' b' : List Char} (ha : x ∉ a) (ha' : x ∉ a') (h : a ++ x :: b = a' ++ x :: b') :
    a = a' ∧ b = b' := by
  induction a generalizing a' with
  | nil =>
    cases a' with
    | nil => exact ⟨rfl, by simpa using h⟩
    | cons c a' =>
      simp only [List.nil_append, List.cons_append, List.cons.injEq] at h
      exact absurd (h.1 ▸ List.mem_cons_self) ha'
  | cons c a ih =>
    cases a' with
    | nil =>
      simp only [List.nil_append, List.cons_append, List.cons.injEq] at h
      exact absurd (h.1 ▸ List.mem_cons_self) ha
    | cons c' a' =>
      simp only [List.cons_append, List.cons.injEq] at h
      obtain ⟨h1, h2⟩ := ih (fun hm => ha (List.mem_cons_of_mem _ hm)) (fun hm => ha' (List.mem_cons_of_mem _ hm)) h.2
      exact ⟨by rw [h.1, h1], h2⟩

/-- The text up to the next bar. -/
theorem cut_bar {a b a' b' : List Char} (ha : '|' ∉ a) (ha' : '|' ∉ a')
    (h : a ++ ' ' :: '|' :: b = a' ++ ' ' :: '|' :: b') : a = a' ∧ b = b' := by
  have e : ∀ x y : List Char, x ++ ' ' :: '|' :: y = (x ++ [' ']) ++ '|' :: y := fun x y => by simp
  rw [e, e] at h
  have n : ∀ {x : List Char}, '|' ∉ x → '|' ∉ x ++ [' '] := fun hx => by
    simp only [List.mem_append, List.mem_singleton, not_or]
    exact ⟨hx, by decide⟩
  obtain ⟨h1, h2⟩ := cut_at (n ha) (n ha') h
  exact ⟨List.append_cancel_right h1, h2⟩

/-- Ends with something else than a space. -/
def EndsSolid (s : List Char) : Prop := ∃ a c, s = a ++ [c] ∧ c ≠ ' '

/-- Starts with something else than a space. -/
def StartsSolid (s : List Char) : Prop := ∃ c a, s = c :: a ∧ c ≠ ' '

theorem padRight_inj {w : Nat} {s t : List Char} (hs : EndsSolid s) (ht : EndsSolid t) (h : padRight w s = padRight w t) :
    s = t := by
  have key : ∀ {s : List Char}, EndsSolid s → ((padRight w s).reverse.dropWhile (· == ' ')).reverse = s := by
    rintro s ⟨a, c, rfl, hc⟩
    unfold padRight
    rw [List.reverse_append, List.reverse_replicate, dropWhile_append_of_all _ _ _ (by
      intro x hx; rw [(List.mem_replicate.1 hx).2]; decide), dropWhile_eq_self _ _ (by
      intro x hx; simp at hx; subst hx; simpa using hc), List.reverse_reverse]
  rw [← key hs, h, key ht]

theorem padLeft_inj {w : Nat} {s t : List Char} (hs : StartsSolid s) (ht : StartsSolid t) (h : padLeft w s = padLeft w t) :
    s = t := by
  have key : ∀ {s : List Char}, StartsSolid s → (padLeft w s).dropWhile (· == ' ') = s := by
    rintro s ⟨c, a, rfl, hc⟩
    unfold padLeft
    rw [dropWhile_append_of_all _ _ _ (by
      intro x hx; rw [(List.mem_replicate.1 hx).2]; decide), dropWhile_eq_self _ _ (by
      intro x hx; simp at hx; subst hx; simpa using hc)]
  rw [← key hs, h, key ht]

theorem startsSolid_dec (n : Nat) : StartsSolid (dec n) := by
  cases h : dec n with
  | nil => exact absurd h (dec_ne_nil n)
  | cons c a =>
    refine ⟨c, a, rfl, fun hc => ?_⟩
    have := dec_digit n (c := c) (by rw [h]; exact List.mem_cons_self)
    rw [hc] at this
    revert this; decide

theorem endsSolid_dec (p : List Char) (n : Nat) : EndsSolid (p ++ dec n) := by
  have hne := dec_ne_nil n
  refine ⟨p ++ (dec n).dropLast, (dec n).getLast hne, ?_, fun hc => ?_⟩
  · rw [List.append_assoc, List.dropLast_concat_getLast]
  · have := dec_digit n (List.getLast_mem hne)
    rw [hc] at this
    revert this; decide

theorem startsSolid_posHex (p : Pos) : StartsSolid (posHex p) := by
  cases p with
  | none => exact ⟨'<', _, rfl, by decide⟩
  | some n => exact ⟨'0', _, rfl, by decide⟩

theorem endsSolid_debug (t : AttrType) : EndsSolid t.debug := by
  have hne : t.debug ≠ [] := by cases t <;> decide
  refine ⟨t.debug.dropLast, t.debug.getLast hne, (List.dropLast_concat_getLast hne).symm, ?_⟩
  revert hne
  cases t <;> decide

theorem endsSolid_bool (b : Bool) : EndsSolid (boolText b) := by
  cases b
  · exact ⟨['f', 'a', 'l', 's'], 'e', rfl, by decide⟩
  · exact ⟨['t', 'r', 'u'], 'e', rfl, by decide⟩

theorem noBar_dec (n : Nat) : '|' ∉ dec n := by
  intro h
  have := dec_digit n h
  revert this; decide

theorem noBar_hexAlt (n : Nat) : '|' ∉ hexAlt 0 n := by
  unfold hexAlt
  simp only [List.mem_cons, List.mem_append, not_or]
  refine ⟨by decide, by decide, fun h => ?_, fun h => ?_⟩
  · exact absurd (List.mem_replicate.1 h).2 (by decide)
  · have := lowerHex_digit n h
    revert this; decide

theorem noBar_posHex (p : Pos) : '|' ∉ posHex p := by
  cases p with
  | none => decide
  | some n => exact noBar_hexAlt n

theorem noBar_padRight {w : Nat} {s : List Char} (h : '|' ∉ s) : '|' ∉ padRight w s := by
  unfold padRight
  rw [List.mem_append, not_or]
  exact ⟨h, fun hm => absurd (List.mem_replicate.1 hm).2 (by decide)⟩

theorem noBar_padLeft {w : Nat} {s : List Char} (h : '|' ∉ s) : '|' ∉ padLeft w s := by
  unfold padLeft
  rw [List.mem_append, not_or]
  exact ⟨fun hm => absurd (List.mem_replicate.1 hm).2 (by decide), h⟩

theorem noBar_instance (r b : Bool) (n : Nat) : '|' ∉ attrInstance r b n := by
  unfold attrInstance
  rw [List.mem_append, not_or]
  exact ⟨by cases r <;> cases b <;> decide, noBar_dec n⟩

theorem noBar_debug (t : AttrType) : '|' ∉ t.debug := by cases t <;> decide

theorem noBar_bool (b : Bool) : '|' ∉ boolText b := by cases b <;> decide

theorem attrInstance_inj {r b b' : Bool} {n n' : Nat} (h : attrInstance r b n = attrInstance r b' n') : b = b' ∧ n = n' := by
  cases r <;> cases b <;> cases b' <;> simp [attrInstance, dec_inj] at h ⊢ <;> exact h

/-- What comes before and after the value in a cell of the table. -/
def Spec.Cell (cell value : List Char) : Prop :=
  ∃ i j, cell = List.replicate i ' ' ++ value ++ List.replicate j ' '

/-- **C75**: the rows of `attr` and `attr_runs` tell what they show: different attributes and data runs have different
rows, whatever the names of the attributes are. -/
theorem C75_row (x y : AttrLine) : x.text = y.text ↔ x = y := by
  refine ⟨fun h => ?_, fun h => by rw [h]⟩
  rcases x with ⟨b, i, t, r, k, p, n, s⟩ | ⟨b, i, p, n⟩
  · rcases y with ⟨b', i', t', r', k', p', n', s'⟩ | ⟨b', i', p', n'⟩
    · simp only [AttrLine.text, List.append_assoc, List.cons_append, List.nil_append] at h
      obtain ⟨h1, h⟩ := cut_bar (noBar_padRight (noBar_instance _ _ _)) (noBar_padRight (noBar_instance _ _ _)) h
      simp only [List.cons.injEq, true_and] at h
      obtain ⟨h2, h⟩ := cut_bar (noBar_padRight (noBar_debug _)) (noBar_padRight (noBar_debug _)) h
      simp only [List.cons.injEq, true_and] at h
      obtain ⟨h3, h⟩ := cut_bar (noBar_padRight (noBar_bool _)) (noBar_padRight (noBar_bool _)) h
      simp only [List.cons.injEq, true_and] at h
      obtain ⟨h4, h⟩ := cut_bar (noBar_padLeft (noBar_hexAlt _)) (noBar_padLeft (noBar_hexAlt _)) h
      simp only [List.cons.injEq, true_and] at h
      obtain ⟨h5, h⟩ := cut_bar (noBar_padLeft (noBar_posHex _)) (noBar_padLeft (noBar_posHex _)) h
      simp only [List.cons.injEq, true_and] at h
      obtain ⟨h6, h⟩ := cut_bar (noBar_padLeft (noBar_dec _)) (noBar_padLeft (noBar_dec _)) h
      have e7 : s = s' := by simpa [quoted] using h
      obtain ⟨rfl, rfl⟩ := attrInstance_inj (padRight_inj (endsSolid_dec _ _) (endsSolid_dec _ _) h1)
      have e2 := debug_inj.1 (padRight_inj (endsSolid_debug _) (endsSolid_debug _) h2)
      have e3 := padRight_inj (endsSolid_bool _) (endsSolid_bool _) h3
      have e3 : r = r' := by revert e3; cases r <;> cases r' <;> decide
      have e4 := hexAlt_inj.1 (padLeft_inj ⟨_, _, rfl, by decide⟩ ⟨_, _, rfl, by decide⟩ h4)
      have e5 := posHex_inj.1 (padLeft_inj (startsSolid_posHex _) (startsSolid_posHex _) h5)
      have e6 := dec_inj.1 (padLeft_inj (startsSolid_dec _) (startsSolid_dec _) h6)
      rw [e2, e3, e4, e5, e6, e7]
    · simp only [AttrLine.text, List.append_assoc, List.cons_append, List.nil_append] at h
      obtain ⟨h1, h⟩ := cut_bar (noBar_padRight (noBar_instance _ _ _)) (noBar_padRight (noBar_instance _ _ _)) h
      simp only [List.cons.injEq, true_and] at h
      obtain ⟨h2, h⟩ := cut_bar (noBar_padRight (noBar_debug _)) (noBar_padRight (by decide)) h
      exfalso
      revert h2
      cases t <;> decide
  · rcases y with ⟨b', i', t', r', k', p', n', s'⟩ | ⟨b', i', p', n'⟩
    · simp only [AttrLine.text, List.append_assoc, List.cons_append, List.nil_append] at h
      obtain ⟨h1, h⟩ := cut_bar (noBar_padRight (noBar_instance _ _ _)) (noBar_padRight (noBar_instance _ _ _)) h
      simp only [List.cons.injEq, true_and] at h
      obtain ⟨h2, h⟩ := cut_bar (noBar_padRight (by decide)) (noBar_padRight (noBar_debug _)) h
      exfalso
      revert h2
      cases t' <;> decide
    · simp only [AttrLine.text, List.append_assoc, List.cons_append, List.nil_append] at h
      obtain ⟨h1, h⟩ := cut_bar (noBar_padRight (noBar_instance _ _ _)) (noBar_padRight (noBar_instance _ _ _)) h
      simp only [List.cons.injEq, true_and, List.append_cancel_left_eq] at h
      obtain ⟨h5, h⟩ := cut_bar (noBar_padLeft (noBar_posHex _)) (noBar_padLeft (noBar_posHex _)) h
      simp only [List.cons.injEq, true_and] at h
      obtain ⟨h6, h⟩ := cut_bar (noBar_padLeft (noBar_dec _)) (noBar_padLeft (noBar_dec _)) h
      obtain ⟨rfl, rfl⟩ := attrInstance_inj (padRight_inj (endsSolid_dec _ _) (endsSolid_dec _ _) h1)
      have e5 := posHex_inj.1 (padLeft_inj (startsSolid_posHex _) (startsSolid_posHex _) h5)
      have e6 := dec_inj.1 (padLeft_inj (startsSolid_dec _) (startsSolid_dec _) h6)
      rw [e5, e6]

theorem cell_padRight (w : Nat) (p s : List Char) (h : ∃ i, p = List.replicate i ' ') : Cell (padRight w (p ++ s)) s := by
  obtain ⟨i, rfl⟩ := h
  exact ⟨i, _, rfl⟩

theorem cell_padLeft (w : Nat) (s : List Char) : Cell (padLeft w s) s := ⟨w - s.length, 0, by simp [padLeft]⟩

/-- **C75**: the row of an attribute. Seven cells with bars between them: the number of the instance, the type, whether the
attribute is resident, the number of the file record in which it is, its position, the length of its value, and its
name in quotation marks. The signs in front of the instance tell the attributes of the base record from the others. -/
theorem C75_attribute_row (nested : Bool) (inst : Nat) (ty : AttrType) (resident : Bool) (record : Nat) (start : Pos)
    (length : Nat) (name : List Char) :
    ∃ a b c d e f v1 v4 v5 v6, (AttrLine.attribute nested inst ty resident record start length name).text =
        a ++ [' ', '|', ' '] ++ b ++ [' ', '|', ' '] ++ c ++ [' ', '|', ' '] ++ d ++ [' ', '|', ' '] ++ e ++
          [' ', '|', ' '] ++ f ++ [' ', '|', ' ', '"'] ++ name ++ ['"'] ∧
      Cell a ((if nested then '○' else '●') :: ' ' :: v1) ∧ Decimal v1 inst ∧ Cell b ty.debug ∧
      Cell c (if resident then ['t', 'r', 'u', 'e'] else ['f', 'a', 'l', 's', 'e']) ∧ Cell d v4 ∧ Hexadecimal v4 record ∧
      Cell e v5 ∧ Whereabouts v5 start ∧ Cell f v6 ∧ Decimal v6 length := by
  refine ⟨padRight 10 (attrInstance false nested inst), padRight 20 ty.debug, padRight 8 (boolText resident),
    padLeft 13 (hexAlt 0 record), padLeft 18 (posHex start), padLeft 13 (dec length), dec inst, hexAlt 0 record,
    posHex start, dec length, by simp [AttrLine.text, quoted], ?_, decimal_dec _, cell_padRight 20 [] _ ⟨0, rfl⟩,
    ?_, cell_padLeft 13 _, hexadecimal_hexAlt _, cell_padLeft 18 _, place_posHex _, cell_padLeft 13 _, decimal_dec _⟩
  · cases nested
    · exact cell_padRight 10 [] _ ⟨0, rfl⟩
    · exact cell_padRight 10 [' ', ' '] _ ⟨2, rfl⟩
  · cases resident
    · exact cell_padRight 8 [] _ ⟨0, rfl⟩
    · exact cell_padRight 8 [] _ ⟨0, rfl⟩

/-- **C75**: the row of a data run: its number, `DataRun`, two empty cells, its position and its length. -/
theorem C75_run_row (nested : Bool) (index : Nat) (start : Pos) (length : Nat) :
    ∃ a b c d e f v1 v5 v6, (AttrLine.run nested index start length).text =
        a ++ [' ', '|', ' '] ++ b ++ [' ', '|', ' '] ++ c ++ [' ', '|', ' '] ++ d ++ [' ', '|', ' '] ++ e ++
          [' ', '|', ' '] ++ f ++ [' ', '|'] ∧
      Cell a ((if nested then '□' else '■') :: ' ' :: v1) ∧ Decimal v1 index ∧
      Cell b ['D', 'a', 't', 'a', 'R', 'u', 'n'] ∧ Cell c [] ∧ Cell d [] ∧
      Cell e v5 ∧ Whereabouts v5 start ∧ Cell f v6 ∧ Decimal v6 length := by
  refine ⟨padRight 10 (attrInstance true nested index), padRight 20 "DataRun".toList, padRight 8 [], padLeft 13 [],
    padLeft 18 (posHex start), padLeft 13 (dec length), dec index, posHex start, dec length, ?_, ?_, decimal_dec _,
    ⟨0, 13, rfl⟩, ⟨8, 0, rfl⟩, ⟨13, 0, rfl⟩, cell_padLeft 18 _, place_posHex _, cell_padLeft 13 _, decimal_dec _⟩
  · rfl
  · cases nested
    · exact cell_padRight 10 [' ', ' '] _ ⟨2, rfl⟩
    · exact cell_padRight 10 [' ', ' ', ' ', ' '] _ ⟨4, rfl⟩

theorem dec_length {k n : Nat} (h : n < 10 ^ (k + 1)) : (dec n).length ≤ k + 1 := by
  induction k generalizing n with
  | zero =>
    rw [dec, if_pos (by simpa using h)]
    simp
  | succ k ih =>
    rw [dec]
    split
    · simp
    · rw [List.length_append, List.length_singleton]
      have := ih (n := n / 10) (by rw [Nat.pow_succ] at h; omega)
      omega

theorem lowerHex_length {k n : Nat} (h : n < 16 ^ (k + 1)) : (lowerHex n).length ≤ k + 1 := by
  induction k generalizing n with
  | zero =>
    rw [lowerHex, if_pos (by simpa using h)]
    simp
  | succ k ih =>
    rw [lowerHex]
    split
    · simp
    · rw [List.length_append, List.length_singleton]
      have := ih (n := n / 16) (by rw [Nat.pow_succ] at h; omega)
      omega

theorem hexAlt_length {k n : Nat} (h : n < 16 ^ (k + 1)) : (hexAlt 0 n).length ≤ k + 3 := by
  have := lowerHex_length h
  simp only [hexAlt, List.length_cons, List.length_append, List.length_replicate]
  omega

theorem padRight_length {w : Nat} {s : List Char} (h : s.length ≤ w) : (padRight w s).length = w := by
  simp only [padRight, List.length_append, List.length_replicate]
  omega

theorem padLeft_length {w : Nat} {s : List Char} (h : s.length ≤ w) : (padLeft w s).length = w := by
  simp only [padLeft, List.length_append, List.length_replicate]
  omega

/-- The columns in which the table has its bars. -/
def Spec.Aligned (line : List Char) : Prop := ∀ k ∈ [11, 34, 45, 61, 82, 98], line[k]? = some '|'

theorem aligned_of {a b c d e f r : List Char} (ha : a.length = 10) (hb : b.length = 20) (hc : c.length = 8)
    (hd : d.length = 13) (he : e.length = 18) (hf : f.length = 13) :
    Aligned (a ++ [' ', '|', ' '] ++ b ++ [' ', '|', ' '] ++ c ++ [' ', '|', ' '] ++ d ++ [' ', '|', ' '] ++ e ++
      [' ', '|', ' '] ++ f ++ ' ' :: '|' :: r) := by
  intro k hk
  simp only [List.mem_cons, List.not_mem_nil, or_false] at hk
  rcases hk with rfl | rfl | rfl | rfl | rfl | rfl <;>
    simp [List.getElem?_append, ha, hb, hc, hd, he, hf]

/-- **C75**: the table is aligned: the bars of all rows are below those of the head, as long as the instance and the number
of a data run have at most four digits (or six, if they are not nested; the instance of any attribute fits), the record
number at most eleven hexadecimal digits and the length at most 13 digits. -/
theorem C75_aligned :
    (∀ l ∈ attrHeader, '|' ∈ l → Aligned l) ∧
    (∀ nested inst ty resident record start length name, inst < U16 → record < 2 ^ 44 → (∀ n, start = some n → n < U64) →
      length < 10 ^ 13 → Aligned (AttrLine.attribute nested inst ty resident record start length name).text) ∧
    (∀ nested index start length, index < 10 ^ 4 ∨ (nested = false ∧ index < 10 ^ 6) → (∀ n, start = some n → n < U64) →
      length < 10 ^ 13 → Aligned (AttrLine.run nested index start length).text) := by
  have hpos : ∀ start : Pos, (∀ n, start = some n → n < U64) → (posHex start).length ≤ 18 := by
    intro start h
    cases start with
    | none => decide
    | some n => exact hexAlt_length (k := 15) (h n rfl)
  refine ⟨by unfold Aligned; decide +kernel, ?_, ?_⟩
  · intro nested inst ty resident record start length name h1 h2 h3 h4
    have := dec_length (k := 4) (n := inst) (Nat.lt_trans h1 (by decide))
    have e : (AttrLine.attribute nested inst ty resident record start length name).text = _ :=
      (List.append_assoc _ [' ', '|', ' '] _)
    rw [e]
    exact aligned_of (padRight_length (by cases nested <;> simp [attrInstance] <;> omega))
      (padRight_length (by cases ty <;> decide)) (padRight_length (by cases resident <;> decide))
      (padLeft_length (hexAlt_length (k := 10) h2)) (padLeft_length (hpos _ h3)) (padLeft_length (dec_length (k := 12) h4))
  · intro nested index start length h1 h3 h4
    have : (attrInstance true nested index).length ≤ 10 := by
      rcases h1 with h1 | ⟨rfl, h1⟩
      · have := dec_length (k := 3) h1
        cases nested <;> simp [attrInstance] <;> omega
      · have := dec_length (k := 5) h1
        simp [attrInstance]; omega
    exact aligned_of (r := []) (padRight_length this) (padRight_length (by decide)) (padRight_length (by decide))
      (padLeft_length (by decide)) (padLeft_length (hpos _ h3)) (padLeft_length (dec_length (k := 12) h4))

/-- The name in a row, which is the only part of it that the volume chooses freely. -/
def AttrLine.named : AttrLine → List Char
  | .attribute _ _ _ _ _ _ _ name => name
  | .run .. => []

theorem oneLine_instance (r b : Bool) (n : Nat) : OneLine (attrInstance r b n) := by
  unfold attrInstance
  rw [oneLine_append]
  exact ⟨by cases r <;> cases b <;> (unfold OneLine; decide), oneLine_dec n⟩

theorem oneLine_row {x : AttrLine} (h : OneLine x.named) : OneLine x.text := by
  rcases x with ⟨b, i, t, r, k, p, n, s⟩ | ⟨b, i, p, n⟩
  · simp only [AttrLine.text, oneLine_append, oneLine_padRight, oneLine_padLeft, oneLine_quoted]
    exact ⟨⟨⟨⟨⟨⟨⟨⟨⟨⟨⟨⟨oneLine_instance _ _ _, oneLine_bar⟩, oneLine_debug _⟩, oneLine_bar⟩, oneLine_bool _⟩, oneLine_bar⟩,
      oneLine_hexAlt _ _⟩, oneLine_bar⟩, oneLine_posHex _⟩, oneLine_bar⟩, oneLine_dec _⟩, oneLine_bar⟩, h⟩
  · simp only [AttrLine.text, oneLine_append, oneLine_padRight, oneLine_padLeft]
    exact ⟨⟨⟨⟨⟨⟨⟨⟨⟨⟨⟨oneLine_instance _ _ _, oneLine_bar⟩, by unfold OneLine; decide⟩, oneLine_bar⟩, oneLine_nil⟩,
      oneLine_bar⟩, oneLine_nil⟩, oneLine_bar⟩, oneLine_posHex _⟩, oneLine_bar⟩, oneLine_dec _⟩, by unfold OneLine; decide⟩

/-- **C75** (partial: only if no name contains a newline): what `attr` and `attr_runs` print, without the three lines of the
head, is one row for each attribute and data run, and the text tells all of them. -/
theorem C75_attr_partial (a b : List AttrLine) (ha : ∀ x ∈ a, OneLine x.named) (hb : ∀ x ∈ b, OneLine x.named) :
    (linesOf (attrStdout a)).drop 3 = a.map AttrLine.text ∧ (attrStdout a = attrStdout b ↔ a = b) := by
  have hh : ∀ l ∈ attrHeader, OneLine l := by unfold OneLine attrHeader; decide
  have ho : ∀ a : List AttrLine, (∀ x ∈ a, OneLine x.named) → ∀ l ∈ attrHeader ++ a.map AttrLine.text, OneLine l := by
    intro a ha l hl
    rcases List.mem_append.1 hl with hl | hl
    · exact hh l hl
    · obtain ⟨x, hx, rfl⟩ := List.mem_map.1 hl
      exact oneLine_row (ha x hx)
  refine ⟨?_, fun h => ?_, fun h => by rw [h]⟩
  · unfold attrStdout
    rw [C75_lines _ (ho a ha)]
    exact List.drop_left' rfl
  · have := List.append_cancel_left (stdout_inj (ho a ha) (ho b hb) h)
    exact (List.map_inj_right (fun x y => (C75_row x y).1)).1 this

/-! ### `fileinfo` -/

theorem Says_labelled {w : Nat} {l : String} {v : List Char} {P : List Char → Prop} (h : l.toList.length < w) (hv : P v) :
    Says (labelled w l v) l P := ⟨w - l.toList.length, v, by omega, rfl, hv⟩

/-- A number that may be missing. -/
def Spec.Maybe (s : List Char) : Option Nat → Prop
  | some n => Decimal s n
  | none => s = ['<', 'N', 'O', 'N', 'E', '>']

theorem maybe_optText (o : Option Nat) : Maybe (optText o) o := by
  cases o with
  | none => rfl
  | some n => exact decimal_dec n

/-- **C75**: the first lines of `fileinfo` give the fields of the file record under their labels. -/
theorem C75_record_lines (fmt : Int → List Char) (allocated : Nat) (position : Pos) (dataSize links : Nat) (directory : Bool)
    (number seq : Nat) :
    ∃ title a b c d e f g, (InfoLine.record allocated position dataSize links directory number seq).lines fmt =
        [title, a, b, c, d, e, f, g] ∧
      Says a "Allocated Size:" (Decimal · allocated) ∧ Says b "Byte Position:" (Whereabouts · position) ∧
      Says c "Data Size:" (Decimal · dataSize) ∧ Says d "Hard-Link Count:" (Decimal · links) ∧
      Says e "Is Directory:" (· = if directory then ['t', 'r', 'u', 'e'] else ['f', 'a', 'l', 's', 'e']) ∧
      Says f "Record Number:" (Hexadecimal · number) ∧ Says g "Sequence Number:" (Decimal · seq) :=
  ⟨_, _, _, _, _, _, _, _, rfl, Says_labelled (by decide) (decimal_dec _), Says_labelled (by decide) (place_posHex _),
    Says_labelled (by decide) (decimal_dec _), Says_labelled (by decide) (decimal_dec _),
    Says_labelled (by decide) (by cases directory <;> rfl), Says_labelled (by decide) (hexadecimal_hexAlt _),
    Says_labelled (by decide) (decimal_dec _)⟩

/-- **C75**: the lines of the standard information. -/
theorem C75_std_lines (fmt : Int → List Char) (i : StdInfo) (atime ctime mtime rtime : Int) :
    ∃ a t1 t2 t3 t4 b c d e f g h, (InfoLine.std i [atime, ctime, mtime, rtime]).lines fmt =
        [a, t1, t2, t3, t4, b, c, d, e, f, g, h] ∧
      Says a "Attributes:" (fun v => ∃ ws, Words fileAttributes i.fileAttributes ws ∧ v = barred ws) ∧
      Says t1 "Access Time:" (· = fmt atime) ∧ Says t2 "Creation Time:" (· = fmt ctime) ∧
      Says t3 "Modification Time:" (· = fmt mtime) ∧ Says t4 "MFT Record Modification Time:" (· = fmt rtime) ∧
      Says b "Class ID:" (Maybe · (i.ntfs3.map (·.classId))) ∧
      Says c "Maximum Versions:" (Maybe · (i.ntfs3.map (·.maximumVersions))) ∧
      Says d "Owner ID:" (Maybe · (i.ntfs3.map (·.ownerId))) ∧
      Says e "Quota Charged:" (Maybe · (i.ntfs3.map (·.quotaCharged))) ∧
      Says f "Security ID:" (Maybe · (i.ntfs3.map (·.securityId))) ∧
      Says g "USN:" (Maybe · (i.ntfs3.map (·.usn))) ∧ Says h "Version:" (Maybe · (i.ntfs3.map (·.version))) := by
  refine ⟨_, _, _, _, _, _, _, _, _, _, _, _, rfl, Says_labelled (by decide) ?_, Says_labelled (by decide) rfl,
    Says_labelled (by decide) rfl, Says_labelled (by decide) rfl, Says_labelled (by decide) rfl,
    Says_labelled (by decide) (maybe_optText _), Says_labelled (by decide) (maybe_optText _),
    Says_labelled (by decide) (maybe_optText _), Says_labelled (by decide) (maybe_optText _),
    Says_labelled (by decide) (maybe_optText _), Says_labelled (by decide) (maybe_optText _),
    Says_labelled (by decide) (maybe_optText _)⟩
  obtain ⟨ws, h1, h2⟩ := C74_text Spec.fileAttributes (.inr (.inr (.inr (.inl rfl)))) i.fileAttributes
  exact ⟨ws, h1, by rw [tables.2.2.2.1]; exact h2⟩

/-- **C75**: the lines of a file name, and those of a data stream. -/
theorem C75_name_lines (fmt : Int → List Char) (name : List Char) (ns : Namespace) (parent size : Nat) :
    (∃ a b c, (InfoLine.fileName name ns parent).lines fmt = [a, b, c] ∧
      Says a "Name:" (· = '"' :: (name ++ ['"'])) ∧
      Says b "Namespace:" (· = match ns with
        | .posix => ['P', 'o', 's', 'i', 'x'] | .win32 => ['W', 'i', 'n', '3', '2'] | .dos => ['D', 'o', 's']
        | .win32AndDos => ['W', 'i', 'n', '3', '2', 'A', 'n', 'd', 'D', 'o', 's']) ∧
      Says c "Parent Directory Record Number:" (Hexadecimal · parent)) ∧
    (∃ a, (InfoLine.streamName name).lines fmt = [a] ∧ Says a "Name:" (· = '"' :: (name ++ ['"']))) ∧
    (∃ a, (InfoLine.streamSize size).lines fmt = [a] ∧ Says a "Size:" (Decimal · size)) :=
  ⟨⟨_, _, _, rfl, Says_labelled (by decide) rfl, Says_labelled (by decide) (by cases ns <;> rfl),
    Says_labelled (by decide) (hexadecimal_hexAlt _)⟩, ⟨_, rfl, Says_labelled (by decide) rfl⟩,
    ⟨_, rfl, Says_labelled (by decide) (decimal_dec _)⟩⟩

/-- What `fileinfo` can print: the headlines are those of three types, and there are four times. -/
def InfoLine.Proper : InfoLine → Prop
  | .head t => t = .standardInformation ∨ t = .fileName ∨ t = .data
  | .std _ times => times.length = 4
  | _ => True

/-- The name in a line. -/
def InfoLine.named : InfoLine → List Char
  | .fileName name _ _ => name
  | .streamName name => name
  | _ => []

theorem fileinfoStd_proper (a : Attr) : ∀ l ∈ (fileinfoStd a).2, l.Proper := by
  unfold fileinfoStd
  split
  · next l h =>
    intro x hx
    simp only [List.mem_cons, List.not_mem_nil, or_false] at hx
    rcases hx with rfl | rfl
    · exact .inl rfl
    · obtain ⟨i, _, h⟩ := Res.bind_eq_ok.1 h
      obtain ⟨t1, _, h⟩ := Res.bind_eq_ok.1 h
      obtain ⟨t2, _, h⟩ := Res.bind_eq_ok.1 h
      obtain ⟨t3, _, h⟩ := Res.bind_eq_ok.1 h
      obtain ⟨t4, _, h⟩ := Res.bind_eq_ok.1 h
      cases h
      rfl
  all_goals
    intro x hx
    rw [List.mem_singleton] at hx
    subst hx
    exact .inl rfl

theorem fileinfoFilename_proper (a : Attr) (d : Dev) : ∀ l ∈ (fileinfoFilename a d).2.1, l.Proper := by
  unfold fileinfoFilename
  split
  · next l d' h =>
    intro x hx
    simp only [List.mem_cons, List.not_mem_nil, or_false] at hx
    rcases hx with rfl | rfl
    · exact .inr (.inl rfl)
    · obtain ⟨n, d1, _, h⟩ := StM.bind_ok_iff.1 h
      obtain ⟨ns, d2, _, h⟩ := StM.bind_ok_iff.1 h
      cases h
      trivial
  all_goals
    intro x hx
    rw [List.mem_singleton] at hx
    subst hx
    exact .inr (.inl rfl)

theorem fileinfoData_proper (a : Attr) : ∀ l ∈ (fileinfoData a).2, l.Proper := by
  unfold fileinfoData
  intro x hx
  have : x = .head .data ∨ (∃ n, x = .streamName n) ∨ ∃ n, x = .streamSize n := by
    split at hx
    · split at hx <;>
      · simp only [List.mem_cons, List.not_mem_nil, or_false] at hx
        rcases hx with h | h
        · exact .inl h
        · first
          | exact .inr (.inl ⟨_, h⟩)
          | (rcases h with h | h
             · exact .inr (.inl ⟨_, h⟩)
             · exact .inr (.inr ⟨_, h⟩))
    all_goals
      simp only [List.mem_cons, List.not_mem_nil, or_false] at hx
      exact .inl hx
  rcases this with rfl | ⟨n, rfl⟩ | ⟨n, rfl⟩
  · exact .inr (.inr rfl)
  · trivial
  · trivial

theorem fileinfoAttr_proper (a : Attr) (d : Dev) : ∀ l ∈ (fileinfoAttr a d).2.1, l.Proper := by
  unfold fileinfoAttr
  split
  · exact fileinfoStd_proper a
  · exact fileinfoFilename_proper a d
  · exact fileinfoData_proper a
  all_goals exact fun l hl => absurd hl List.not_mem_nil

theorem fileinfoLoop_proper : ∀ (n : Nat) (out : List InfoLine) (s : Attrs × Dev), (∀ l ∈ out, l.Proper) →
    ∀ l ∈ (fileinfoLoop n out s).2.1, l.Proper
  | 0, out, (_, d), h => h
  | n + 1, out, s, h => by
    rw [fileinfoLoop]
    split
    · exact h
    · split
      · next a _ =>
        have hp := fileinfoAttr_proper a
        split
        · next l d' hr =>
          refine fileinfoLoop_proper n _ _ fun x hx => ?_
          rcases List.mem_append.1 hx with hx | hx
          · exact h x hx
          · exact hp _ x (by rw [hr]; exact hx)
        all_goals
          next l d' hr =>
          intro x hx
          rcases List.mem_append.1 hx with hx | hx
          · exact h x hx
          · exact hp _ x (by rw [hr]; exact hx)
      all_goals exact h
    all_goals exact h

theorem fileinfo_proper (f : NFile) (fuel : Nat) (d : Dev) : ∀ l ∈ (f.fileinfo fuel d).2.1, l.Proper := by
  unfold NFile.fileinfo
  split
  · next l it h =>
    obtain ⟨l', h1, h⟩ := Res.bind_eq_ok.1 h
    obtain ⟨it', h2, h⟩ := Res.bind_eq_ok.1 h
    cases h
    refine fileinfoLoop_proper _ _ _ fun x hx => ?_
    rw [List.mem_singleton] at hx
    subst hx
    unfold NFile.infoLine at h1
    obtain ⟨_, _, h1⟩ := Res.bind_eq_ok.1 h1
    obtain ⟨_, _, h1⟩ := Res.bind_eq_ok.1 h1
    obtain ⟨_, _, h1⟩ := Res.bind_eq_ok.1 h1
    obtain ⟨_, _, h1⟩ := Res.bind_eq_ok.1 h1
    obtain ⟨_, _, h1⟩ := Res.bind_eq_ok.1 h1
    cases h1
    trivial
  all_goals exact fun l hl => absurd hl List.not_mem_nil

theorem optText_inj {a b : Option Nat} (h : optText a = optText b) : a = b := by
  have hne : ∀ n, dec n ≠ "<NONE>".toList := by
    intro n hn
    have := dec_digit n (c := '<') (by rw [hn]; decide)
    revert this; decide
  cases a <;> cases b
  · rfl
  · exact absurd h.symm (hne _)
  · exact absurd h (hne _)
  · exact congrArg _ (dec_inj.1 h)

theorem labelled_inj {w : Nat} {l : String} {v v' : List Char} (h : labelled w l v = labelled w l v') : v = v' :=
  List.append_cancel_left h

/-- What the text of `fileinfo` tells of the standard information: the declared attributes, the times as they are formatted,
and the fields of NTFS 3. -/
def InfoLine.SameShown (fmt : Int → List Char) : InfoLine → InfoLine → Prop
  | .std i t, .std j u => i.fileAttributes = j.fileAttributes ∧ t.map fmt = u.map fmt ∧ i.ntfs3 = j.ntfs3
  | x, y => x = y

/-- The start of the first line of each kind. -/
def InfoLine.start : InfoLine → List Char
  | .record .. => ['=', '=', '=', '=', '=', '=']
  | .head _ => []
  | .std .. => ['A', 't', 't', 'r', 'i', 'b']
  | .fileName .. => ['N', 'a', 'm', 'e', ':', ' ']
  | .streamName _ => ['N', 'a', 'm', 'e', ':', ' ']
  | .streamSize _ => ['S', 'i', 'z', 'e', ':', ' ']

theorem lines_start (fmt : Int → List Char) (x : InfoLine) : ∃ l ls, x.lines fmt = l :: ls ∧ l.take 6 = x.start := by
  cases x <;> exact ⟨_, _, rfl, rfl⟩

theorem head_inj {s t : AttrType} (hs : s = .standardInformation ∨ s = .fileName ∨ s = .data)
    (ht : t = .standardInformation ∨ t = .fileName ∨ t = .data) (h : centred 72 (headline s) = centred 72 (headline t)) :
    s = t := by
  rcases hs with rfl | rfl | rfl <;> rcases ht with rfl | rfl | rfl <;> first | rfl | (revert h; decide)

theorem four {t : List Int} (h : t.length = 4) : ∃ a b c d, t = [a, b, c, d] := by
  match t, h with
  | [a, b, c, d], _ => exact ⟨a, b, c, d, rfl⟩

/-- The first entry of what is left to be read, and the lines after it. -/
theorem lines_read (fmt : Int → List Char) (x y : InfoLine) (hx : x.Proper) (hy : y.Proper) (a b : List InfoLine)
    (h : x.lines fmt ++ a.flatMap (·.lines fmt) = y.lines fmt ++ b.flatMap (·.lines fmt)) :
    x.SameShown fmt y ∧ a.flatMap (·.lines fmt) = b.flatMap (·.lines fmt) := by
  have hs : x.start = y.start := by
    obtain ⟨l, ls, h1, h2⟩ := lines_start fmt x
    obtain ⟨m, ms, g1, g2⟩ := lines_start fmt y
    rw [h1, g1, List.cons_append, List.cons_append] at h
    rw [← h2, ← g2, (List.cons.inj h).1]
  -- a line `Namespace:` does not follow a stream
  have stray : ∀ (c : List InfoLine) (v : List Char) (rest : List (List Char)),
      c.flatMap (·.lines fmt) ≠ labelled 34 "Namespace:" v :: rest := by
    intro c v rest hc
    cases c with
    | nil => cases hc
    | cons z c =>
      obtain ⟨l, ls, h1, h2⟩ := lines_start fmt z
      rw [List.flatMap_cons, h1, List.cons_append] at hc
      rw [(List.cons.inj hc).1] at h2
      have : (labelled 34 "Namespace:" v).take 6 = ['N', 'a', 'm', 'e', 's', 'p'] := rfl
      rw [this] at h2
      cases z <;> exact absurd h2 (by simp [InfoLine.start])
  cases x <;> cases y <;> first | (exfalso; simp [InfoLine.start] at hs; done) | skip
  all_goals
    have sa := stray a
    have sb := stray b
    generalize a.flatMap (·.lines fmt) = ra at h sa ⊢
    generalize b.flatMap (·.lines fmt) = rb at h sb ⊢
  case record.record a1 a2 a3 a4 a5 a6 a7 b1 b2 b3 b4 b5 b6 b7 =>
    simp only [InfoLine.lines, List.cons_append, List.nil_append, List.cons.injEq, true_and] at h
    obtain ⟨h1, h2, h3, h4, h5, h6, h7, h⟩ := h
    refine ⟨?_, h⟩
    have e5 := labelled_inj h5
    have e5 : a5 = b5 := by revert e5; cases a5 <;> cases b5 <;> decide
    rw [dec_inj.1 (labelled_inj h1), posHex_inj.1 (labelled_inj h2), dec_inj.1 (labelled_inj h3),
      dec_inj.1 (labelled_inj h4), e5, hexAlt_inj.1 (labelled_inj h6), dec_inj.1 (labelled_inj h7)]
    rfl
  case head.head =>
    simp only [InfoLine.lines, List.cons_append, List.nil_append, List.cons.injEq, true_and] at h
    exact ⟨congrArg InfoLine.head (head_inj hx hy h.1), h.2⟩
  case std.std i t j u =>
    obtain ⟨t1, t2, t3, t4, rfl⟩ := four hx
    obtain ⟨u1, u2, u3, u4, rfl⟩ := four hy
    simp only [InfoLine.lines, List.cons_append, List.nil_append, List.cons.injEq, List.zipWith_cons_cons,
      List.zipWith_nil_left] at h
    obtain ⟨h0, g1, g2, g3, g4, h1, h2, h3, h4, h5, h6, h7, h⟩ := h
    refine ⟨⟨?_, ?_, ?_⟩, h⟩
    · have := labelled_inj h0
      rw [tables.2.2.2.1] at this
      exact (C74_tells Spec.fileAttributes (.inr (.inr (.inr (.inl rfl)))) _ _).1 this
    · simp only [List.map_cons, List.map_nil, labelled_inj g1, labelled_inj g2, labelled_inj g3, labelled_inj g4]
    · have e1 := optText_inj (labelled_inj h1)
      have e2 := optText_inj (labelled_inj h2)
      have e3 := optText_inj (labelled_inj h3)
      have e4 := optText_inj (labelled_inj h4)
      have e5 := optText_inj (labelled_inj h5)
      have e6 := optText_inj (labelled_inj h6)
      have e7 := optText_inj (labelled_inj h7)
      cases hi : i.ntfs3 with
      | none =>
        cases hj : j.ntfs3 with
        | none => rfl
        | some q => rw [hi, hj] at e1; cases e1
      | some p =>
        cases hj : j.ntfs3 with
        | none => rw [hi, hj] at e1; cases e1
        | some q =>
          rw [hi, hj] at e1 e2 e3 e4 e5 e6 e7
          simp only [Option.map_some, Option.some.injEq] at e1 e2 e3 e4 e5 e6 e7
          cases p
          cases q
          simp_all
  case fileName.fileName n1 s1 p1 n2 s2 p2 =>
    simp only [InfoLine.lines, List.cons_append, List.nil_append, List.cons.injEq] at h
    obtain ⟨h1, h2, h3, h⟩ := h
    refine ⟨?_, h⟩
    have e1 : n1 = n2 := by simpa [quoted] using labelled_inj h1
    have e2 := labelled_inj h2
    have e2 : s1 = s2 := by revert e2; cases s1 <;> cases s2 <;> decide
    have e3 := hexAlt_inj.1 (labelled_inj h3)
    rw [e1, e2, e3]
    rfl
  case fileName.streamName =>
    simp only [InfoLine.lines, List.cons_append, List.nil_append, List.cons.injEq] at h
    exact absurd h.2.symm (sb _ _)
  case streamName.fileName =>
    simp only [InfoLine.lines, List.cons_append, List.nil_append, List.cons.injEq] at h
    exact absurd h.2 (sa _ _)
  case streamName.streamName n1 n2 =>
    simp only [InfoLine.lines, List.cons_append, List.nil_append, List.cons.injEq] at h
    have e1 : n1 = n2 := by simpa [quoted] using labelled_inj h.1
    exact ⟨congrArg InfoLine.streamName e1, h.2⟩
  case streamSize.streamSize n1 n2 =>
    simp only [InfoLine.lines, List.cons_append, List.nil_append, List.cons.injEq] at h
    exact ⟨congrArg InfoLine.streamSize (dec_inj.1 (labelled_inj h.1)), h.2⟩

/-- The same things are shown, one by one. -/
inductive Spec.AllShown (fmt : Int → List Char) : List InfoLine → List InfoLine → Prop
  | nil : AllShown fmt [] []
  | cons {x y : InfoLine} {a b : List InfoLine} : x.SameShown fmt y → AllShown fmt a b → AllShown fmt (x :: a) (y :: b)

theorem allShown_of_lines (fmt : Int → List Char) : ∀ (a b : List InfoLine), (∀ x ∈ a, x.Proper) → (∀ x ∈ b, x.Proper) →
    a.flatMap (·.lines fmt) = b.flatMap (·.lines fmt) → AllShown fmt a b
  | [], [], _, _, _ => .nil
  | [], y :: b, _, _, h => by
    obtain ⟨l, ls, h1, _⟩ := lines_start fmt y
    rw [List.flatMap_cons, h1] at h
    cases h
  | x :: a, [], _, _, h => by
    obtain ⟨l, ls, h1, _⟩ := lines_start fmt x
    rw [List.flatMap_cons, h1] at h
    cases h
  | x :: a, y :: b, ha, hb, h => by
    obtain ⟨h1, h2⟩ := lines_read fmt x y (ha x List.mem_cons_self) (hb y List.mem_cons_self) a b h
    exact .cons h1 (allShown_of_lines fmt a b (fun z hz => ha z (List.mem_cons_of_mem _ hz))
      (fun z hz => hb z (List.mem_cons_of_mem _ hz)) h2)

theorem oneLine_infoLines {fmt : Int → List Char} (hf : ∀ t, OneLine (fmt t)) {x : InfoLine} (hp : x.Proper)
    (h : OneLine x.named) : ∀ l ∈ x.lines fmt, OneLine l := by
  have lab : ∀ {l : String} {v : List Char}, '\n' ∉ l.toList → OneLine v → OneLine (labelled 34 l v) :=
    fun h1 h2 => oneLine_labelled h1 h2
  intro l hl
  cases x with
  | record a p b c d e f =>
    simp only [InfoLine.lines, List.mem_cons, List.not_mem_nil, or_false] at hl
    rcases hl with rfl | rfl | rfl | rfl | rfl | rfl | rfl | rfl
    · unfold OneLine; decide
    · exact lab (by decide) (oneLine_dec _)
    · exact lab (by decide) (oneLine_posHex _)
    · exact lab (by decide) (oneLine_dec _)
    · exact lab (by decide) (oneLine_dec _)
    · exact lab (by decide) (oneLine_bool _)
    · exact lab (by decide) (oneLine_hexAlt _ _)
    · exact lab (by decide) (oneLine_dec _)
  | head t =>
    simp only [InfoLine.lines, List.mem_cons, List.not_mem_nil, or_false] at hl
    rcases hl with rfl | rfl
    · exact oneLine_nil
    · rcases hp with rfl | rfl | rfl <;> (unfold OneLine; decide)
  | std i t =>
    obtain ⟨t1, t2, t3, t4, rfl⟩ := four hp
    simp only [InfoLine.lines, List.mem_cons, List.not_mem_nil, or_false, List.zipWith_cons_cons,
      List.zipWith_nil_left, List.cons_append, List.nil_append] at hl
    rcases hl with rfl | rfl | rfl | rfl | rfl | rfl | rfl | rfl | rfl | rfl | rfl | rfl
    · exact lab (by decide) (oneLine_fileAttributes _)
    · exact lab (by decide) (hf _)
    · exact lab (by decide) (hf _)
    · exact lab (by decide) (hf _)
    · exact lab (by decide) (hf _)
    all_goals exact lab (by decide) (oneLine_optText _)
  | fileName n s p =>
    simp only [InfoLine.lines, List.mem_cons, List.not_mem_nil, or_false] at hl
    rcases hl with rfl | rfl | rfl
    · exact lab (by decide) (oneLine_quoted.2 h)
    · exact lab (by decide) (by cases s <;> (unfold OneLine Namespace.debug; decide))
    · exact lab (by decide) (oneLine_hexAlt _ _)
  | streamName n =>
    simp only [InfoLine.lines, List.mem_cons, List.not_mem_nil, or_false] at hl
    subst hl
    exact lab (by decide) (oneLine_quoted.2 h)
  | streamSize n =>
    simp only [InfoLine.lines, List.mem_cons, List.not_mem_nil, or_false] at hl
    subst hl
    exact lab (by decide) (oneLine_dec _)

/-- **C75** (partial: only if no name contains a newline): the text of `fileinfo` tells everything that it shows: where two
files give the same text, they agree in the fields of their record and, one attribute after the other, in the names and
sizes of their streams, in their names, and in their standard information as far as it is shown. -/
theorem C75_fileinfo_partial (fmt : Int → List Char) (hfmt : ∀ t, OneLine (fmt t)) (f g : NFile) (fuel fuel' : Nat)
    (d d' : Dev) (hf : ∀ l ∈ (f.fileinfo fuel d).2.1, OneLine l.named)
    (hg : ∀ l ∈ (g.fileinfo fuel' d').2.1, OneLine l.named)
    (h : fileinfoStdout fmt (f.fileinfo fuel d).2.1 = fileinfoStdout fmt (g.fileinfo fuel' d').2.1) :
    AllShown fmt (f.fileinfo fuel d).2.1 (g.fileinfo fuel' d').2.1 := by
  have ho : ∀ (f : NFile) (fuel : Nat) (d : Dev), (∀ l ∈ (f.fileinfo fuel d).2.1, OneLine l.named) →
      ∀ x ∈ (f.fileinfo fuel d).2.1.flatMap (·.lines fmt), OneLine x := by
    intro f fuel d hf x hx
    obtain ⟨l, hl, hx⟩ := List.mem_flatMap.1 hx
    exact oneLine_infoLines hfmt (fileinfo_proper f fuel d l hl) (hf l hl) x hx
  exact allShown_of_lines fmt _ _ (fileinfo_proper f fuel d) (fileinfo_proper g fuel' d')
    (stdout_inj (ho f fuel d hf) (ho g fuel' d' hg) h)

/-! ### `fsinfo` -/

/-- **C75**: the lines of `fsinfo`. -/
theorem C75_fsinfo_lines (clusterSize fileRecordSize : Nat) (mft : Pos) (major minor sectorSize serial size : Nat)
    (name : Bytes) :
    (∃ a b c, (FsLine.layout clusterSize fileRecordSize mft).lines = [a, b, c] ∧
      Says a "Cluster Size:" (Decimal · clusterSize) ∧ Says b "File Record Size:" (Decimal · fileRecordSize) ∧
      Says c "MFT Byte Position:" (Whereabouts · mft)) ∧
    (∃ a, (FsLine.version major minor).lines = [a] ∧
      Says a "NTFS Version:" (fun v => ∃ x y, v = x ++ '.' :: y ∧ Decimal x major ∧ Decimal y minor)) ∧
    (∃ a b c, (FsLine.size sectorSize serial size).lines = [a, b, c] ∧ Says a "Sector Size:" (Decimal · sectorSize) ∧
      Says b "Serial Number:" (Decimal · serial) ∧ Says c "Size:" (Decimal · size)) ∧
    (∃ a, (FsLine.label (some name)).lines = [a] ∧ Says a "Volume Name:" (· = '"' :: (lossy (u16s name) ++ ['"']))) ∧
    (∃ a, (FsLine.label none).lines = [a] ∧ Says a "Volume Name:" (· = ['<', 'N', 'O', 'N', 'E', '>'])) :=
  ⟨⟨_, _, _, rfl, Says_labelled (by decide) (decimal_dec _), Says_labelled (by decide) (decimal_dec _),
      Says_labelled (by decide) (place_posHex _)⟩,
    ⟨_, rfl, Says_labelled (by decide) ⟨_, _, rfl, decimal_dec _, decimal_dec _⟩⟩,
    ⟨_, _, _, rfl, Says_labelled (by decide) (decimal_dec _), Says_labelled (by decide) (decimal_dec _),
      Says_labelled (by decide) (decimal_dec _)⟩,
    ⟨_, rfl, Says_labelled (by decide) rfl⟩, ⟨_, rfl, Says_labelled (by decide) rfl⟩⟩

/-- What the text of `fsinfo` tells: of the label as it is decoded. -/
def FsLine.shown : FsLine → FsLine ⊕ Option (List Char)
  | .label name => .inr (name.map fun n => lossy (u16s n))
  | x => .inl x

theorem fsLines_start (x : FsLine) : ∃ l ls, x.lines = l :: ls ∧ l.take 6 = match x with
    | .layout .. => ['C', 'l', 'u', 's', 't', 'e']
    | .version .. => ['N', 'T', 'F', 'S', ' ', 'V']
    | .size .. => ['S', 'e', 'c', 't', 'o', 'r']
    | .label _ => ['V', 'o', 'l', 'u', 'm', 'e'] := by
  cases x with
  | label n => cases n <;> exact ⟨_, _, rfl, rfl⟩
  | _ => exact ⟨_, _, rfl, rfl⟩

theorem fsLines_read (x y : FsLine) (ra rb : List (List Char)) (h : x.lines ++ ra = y.lines ++ rb) :
    x.shown = y.shown ∧ ra = rb := by
  have hs := h
  obtain ⟨l, ls, h1, h2⟩ := fsLines_start x
  obtain ⟨m, ms, g1, g2⟩ := fsLines_start y
  rw [h1, g1, List.cons_append, List.cons_append] at hs
  rw [(List.cons.inj hs).1, g2] at h2
  clear hs h1 g1 g2
  cases x <;> cases y <;> first | (exfalso; simp at h2; done) | skip
  case layout.layout =>
    simp only [FsLine.lines, List.cons_append, List.nil_append, List.cons.injEq] at h
    obtain ⟨a1, a2, a3, h⟩ := h
    rw [dec_inj.1 (labelled_inj a1), dec_inj.1 (labelled_inj a2), posHex_inj.1 (labelled_inj a3)]
    exact ⟨rfl, h⟩
  case version.version =>
    simp only [FsLine.lines, List.cons_append, List.nil_append, List.cons.injEq] at h
    have hp : ∀ n, '.' ∉ dec n := by
      intro n hn
      have := dec_digit n hn
      revert this; decide
    obtain ⟨a1, a2⟩ := cut_at (hp _) (hp _) (labelled_inj h.1)
    rw [dec_inj.1 a1, dec_inj.1 a2]
    exact ⟨rfl, h.2⟩
  case size.size =>
    simp only [FsLine.lines, List.cons_append, List.nil_append, List.cons.injEq] at h
    obtain ⟨a1, a2, a3, h⟩ := h
    rw [dec_inj.1 (labelled_inj a1), dec_inj.1 (labelled_inj a2), dec_inj.1 (labelled_inj a3)]
    exact ⟨rfl, h⟩
  case label.label n1 n2 =>
    cases n1 <;> cases n2
    · simp only [FsLine.lines, List.cons_append, List.nil_append, List.cons.injEq] at h
      exact ⟨rfl, h.2⟩
    · simp only [FsLine.lines, List.cons_append, List.nil_append, List.cons.injEq] at h
      exact absurd (congrArg List.head? (labelled_inj h.1)) (by simp [quoted])
    · simp only [FsLine.lines, List.cons_append, List.nil_append, List.cons.injEq] at h
      exact absurd (congrArg List.head? (labelled_inj h.1)) (by simp [quoted])
    · simp only [FsLine.lines, List.cons_append, List.nil_append, List.cons.injEq] at h
      have := labelled_inj h.1
      simp only [quoted, List.cons.injEq, true_and, List.append_cancel_right_eq] at this
      exact ⟨by simp only [FsLine.shown, Option.map_some, this], h.2⟩

theorem fsLines_shown : ∀ (a b : List FsLine), a.flatMap FsLine.lines = b.flatMap FsLine.lines →
    a.map FsLine.shown = b.map FsLine.shown
  | [], [], _ => rfl
  | [], y :: b, h => by
    obtain ⟨l, ls, h1, _⟩ := fsLines_start y
    rw [List.flatMap_cons, h1] at h
    cases h
  | x :: a, [], h => by
    obtain ⟨l, ls, h1, _⟩ := fsLines_start x
    rw [List.flatMap_cons, h1] at h
    cases h
  | x :: a, y :: b, h => by
    obtain ⟨h1, h2⟩ := fsLines_read x y _ _ h
    rw [List.map_cons, List.map_cons, h1, fsLines_shown a b h2]

/-- The label in a line of `fsinfo`. -/
def FsLine.named : FsLine → List Char
  | .label (some name) => lossy (u16s name)
  | _ => []

theorem oneLine_fsLines {x : FsLine} (h : OneLine x.named) : ∀ l ∈ x.lines, OneLine l := by
  have lab : ∀ {l : String} {v : List Char}, '\n' ∉ l.toList → OneLine v → OneLine (labelled 20 l v) :=
    fun h1 h2 => oneLine_labelled h1 h2
  intro l hl
  cases x with
  | layout =>
    simp only [FsLine.lines, List.mem_cons, List.not_mem_nil, or_false] at hl
    rcases hl with rfl | rfl | rfl
    · exact lab (by decide) (oneLine_dec _)
    · exact lab (by decide) (oneLine_dec _)
    · exact lab (by decide) (oneLine_posHex _)
  | version =>
    simp only [FsLine.lines, List.mem_cons, List.not_mem_nil, or_false] at hl
    subst hl
    exact lab (by decide) (oneLine_append.2 ⟨oneLine_dec _, oneLine_cons.2 ⟨by decide, oneLine_dec _⟩⟩)
  | size =>
    simp only [FsLine.lines, List.mem_cons, List.not_mem_nil, or_false] at hl
    rcases hl with rfl | rfl | rfl <;> exact lab (by decide) (oneLine_dec _)
  | label n =>
    cases n with
    | none =>
      simp only [FsLine.lines, List.mem_cons, List.not_mem_nil, or_false] at hl
      subst hl
      exact lab (by decide) oneLine_none
    | some n =>
      simp only [FsLine.lines, List.mem_cons, List.not_mem_nil, or_false] at hl
      subst hl
      exact lab (by decide) (oneLine_quoted.2 h)

/-- **C75** (partial: only if the label contains no newline): the text of `fsinfo` tells everything that it shows. A volume
without a label is told from one with the label `<NONE>`. -/
theorem C75_fsinfo_partial (a b : List FsLine) (ha : ∀ x ∈ a, OneLine x.named) (hb : ∀ x ∈ b, OneLine x.named)
    (h : fsinfoStdout a = fsinfoStdout b) : a.map FsLine.shown = b.map FsLine.shown := by
  have ho : ∀ a : List FsLine, (∀ x ∈ a, OneLine x.named) → ∀ l ∈ a.flatMap FsLine.lines, OneLine l := by
    intro a ha l hl
    obtain ⟨x, hx, hl⟩ := List.mem_flatMap.1 hl
    exact oneLine_fsLines (ha x hx) l hl
  exact fsLines_shown a b (stdout_inj (ho a ha) (ho b hb) h)

/-! ### Names with newlines -/

/-- The file record of a directory with one file in it. The name of the file contains a newline. -/
def exTrickRecord : Bytes :=
  [70, 73, 76, 69, 0, 0, 0, 0, 0, 0, 0, 0, 0, 0, 0, 0, 1, 0, 1, 0, 56, 0, 3, 0, 248, 0, 0, 0, 0, 4, 0, 0, 0, 0, 0,
   0, 0, 0, 0, 0, 0, 0, 0, 0, 0, 0, 0, 0, 0, 0, 0, 0, 0, 0, 0, 0, 144, 0, 0, 0, 184, 0, 0, 0, 0, 4, 24, 0, 0, 0, 0,
   0, 152, 0, 0, 0, 32, 0, 0, 0, 36, 0, 73, 0, 51, 0, 48, 0, 48, 0, 0, 0, 1, 0, 0, 0, 0, 16, 0, 0, 1, 0, 0, 0, 16,
   0, 0, 0, 136, 0, 0, 0, 136, 0, 0, 0, 0, 0, 0, 0, 42, 0, 0, 0, 0, 0, 1, 0, 104, 0, 86, 0, 0, 0, 0, 0, 5, 0, 0, 0,
   0, 0, 5, 0, 0, 0, 0, 0, 0, 0, 0, 0, 0, 0, 0, 0, 0, 0, 0, 0, 0, 0, 0, 0, 0, 0, 0, 0, 0, 0, 0, 0, 0, 0, 0, 0, 0,
   0, 0, 0, 0, 0, 0, 0, 0, 0, 0, 0, 0, 0, 0, 0, 32, 0, 0, 0, 0, 0, 0, 0, 10, 1, 97, 0, 10, 0, 60, 0, 68, 0, 73, 0,
   82, 0, 62, 0, 32, 0, 32, 0, 98, 0, 0, 0, 0, 0, 0, 0, 0, 0, 0, 0, 16, 0, 0, 0, 2, 0, 0, 0, 255, 255, 255, 255, 0,
   0, 0, 0]

def exTrickNtfs : Ntfs :=
  { clusterSize := 512, sectorSize := 512, size := 65536, mftPosition := some 512,
    fileRecordSize := 1024, serialNumber := 0, upcaseTable := none }

def exTrickShell : Shell := ⟨[⟨exTrickNtfs, ⟨exTrickRecord, some 512⟩, 5⟩], [], exTrickNtfs⟩

/-- **C75** does not hold for all names: there is a directory with a single file, and the text of `dir` is that of a
directory with a file `a` and a directory `b`. -/
theorem C75_dir_negation : ∃ (s : Shell) (d : Dev) (name a b : Bytes),
    (s.dir 10 d).1 = .ok () ∧ (s.dir 10 d).2.1 = [(false, name)] ∧ lossy (u16s a) = ['a'] ∧ lossy (u16s b) = ['b'] ∧
      dirStdout [(false, name)] = dirStdout [(false, a), (true, b)] := by
  refine ⟨exTrickShell, ⟨[], 0, []⟩,
    [97, 0, 10, 0, 60, 0, 68, 0, 73, 0, 82, 0, 62, 0, 32, 0, 32, 0, 98, 0], [97, 0], [98, 0], ?_⟩
  decide +kernel

/-! ### Examples -/

example : dirStdout [(true, [100, 0]), (false, [120, 0, 46, 0, 116, 0])] = "<DIR>  d\n       x.t\n".toList := by decide +kernel
example : ∀ e ∈ [(true, [100, 0]), (false, ([120, 0, 46, 0, 116, 0] : Bytes))], OneLine (lossy (u16s e.2)) := by
  unfold OneLine; decide
example := C75_dir_partial [(true, [100, 0]), (false, [120, 0, 46, 0, 116, 0])] (by unfold OneLine; decide)
example := C75_lines [['a'], [], ['b', ' ']] (by unfold OneLine; decide)
example (d : Dev) := C75_record_number exTrickShell 5 (by decide) ['0', 'x', '5'] (.inl (by decide +kernel)) 10 d
example : (AttrLine.attribute true 3 .data false 0x2a (some 4096) 12345 []).text =
    "  ○ 3      | Data                 | false    |          0x2a |             0x1000 |         12345 | \"\"".toList := by
  decide +kernel
example := C75_aligned.2.1 true 3 .data false 0x2a (some 4096) 12345 [] (by decide) (by decide)
  (by intro n h; cases h; decide) (by decide)
example := C75_row (.attribute true 3 .data false 0x2a (some 4096) 12345 []) (.run true 3 (some 4096) 12345)
example := C75_attr_partial [.attribute false 3 .data false 5 (some 4096) 12345 ['a', '|'], .run false 0 none 8]
  [.attribute false 3 .data false 5 (some 4096) 12345 ['a'], .run false 0 none 8] (by unfold OneLine; decide) (by unfold OneLine; decide)
example : ((InfoLine.head .data).lines fun _ => []).map (·.length) = [0, 72] := by decide
example : ∀ l ∈ (exTrickShell.stack.map fun f => (f.fileinfo 10 ⟨[], 0, []⟩).2.1).flatten, OneLine l.named := by
  unfold OneLine; decide +kernel
example := C75_fileinfo_partial (fun _ => ['t']) (fun _ => by unfold OneLine; decide) ⟨exTrickNtfs, ⟨exTrickRecord, some 512⟩, 5⟩
  ⟨exTrickNtfs, ⟨exTrickRecord, some 512⟩, 6⟩ 10 10 ⟨[], 0, []⟩ ⟨[], 0, []⟩ (by unfold OneLine; decide +kernel)
  (by unfold OneLine; decide +kernel)
example := C75_fsinfo_partial [.layout 512 1024 (some 512), .label none] [.layout 512 1024 (some 512), .label (some [60, 0])]
  (by unfold OneLine; decide) (by unfold OneLine; decide)

end NT
