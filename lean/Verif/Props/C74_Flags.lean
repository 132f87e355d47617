import Verif.Model.Flags
import Verif.Model.Index
import Verif.Lemmas.Messages
import Verif.Props.C38_StructuredValues

/-! C74: the text of flags says exactly which flags are set. -/

namespace NT

namespace Spec

/-- Flags as documented: the number of the bit and the name, in the order of the declaration. -/
abbrev Declared := List (Nat × String)

/-- Flags of an attribute. -/
def attributeFlags : Declared := [(0, "COMPRESSED"), (14, "ENCRYPTED"), (15, "SPARSE")]

/-- Flags of a file record. -/
def fileFlags : Declared := [(0, "IN_USE"), (1, "IS_DIRECTORY")]

/-- Flags of an index entry. -/
def entryFlags : Declared := [(0, "HAS_SUBNODE"), (1, "LAST_ENTRY")]

/-- File attributes. -/
def fileAttributes : Declared :=
  [(0, "READ_ONLY"), (1, "HIDDEN"), (2, "SYSTEM"), (5, "ARCHIVE"), (6, "DEVICE"), (7, "NORMAL"), (8, "TEMPORARY"),
    (9, "SPARSE_FILE"), (10, "REPARSE_POINT"), (11, "COMPRESSED"), (12, "OFFLINE"), (13, "NOT_CONTENT_INDEXED"),
    (14, "ENCRYPTED"), (28, "IS_DIRECTORY")]

/-- Flags of a volume. -/
def volumeFlags : Declared :=
  [(0, "IS_DIRTY"), (1, "RESIZE_LOG_FILE"), (2, "UPGRADE_ON_MOUNT"), (3, "MOUNTED_ON_NT4"),
    (4, "DELETE_USN_UNDERWAY"), (5, "REPAIR_OBJECT_ID"), (14, "CHKDSK_UNDERWAY"), (15, "MODIFIED_BY_CHKDSK")]

/-- The names of the flags that are set in `x`. -/
def setNames (d : Declared) (x : Nat) : List (List Char) :=
  (d.filter fun f => x.testBit f.1).map fun f => f.2.toList

/-- Words with bars between them. -/
def barred : List (List Char) → List Char
  | [] => []
  | [w] => w
  | w :: v :: ws => w ++ [' ', '|', ' '] ++ barred (v :: ws)

/-- `r` has exactly the bits of `x` that no flag is declared for. -/
def Rest (d : Declared) (x r : Nat) : Prop := ∀ k, r.testBit k = (x.testBit k && decide (k ∉ d.map (·.1)))

/-- The words for `x`: the names that are set, and the rest, if any, as a hexadecimal number. -/
inductive Words (d : Declared) (x : Nat) : List (List Char) → Prop
  | names : Rest d x 0 → Words d x (setNames d x)
  | more {r : Nat} {digits : List Char} : r ≠ 0 → Rest d x r → hexValue digits = r →
      (∀ c ∈ digits, (48 ≤ c.toNat ∧ c.toNat < 58) ∨ (97 ≤ c.toNat ∧ c.toNat < 103)) → digits ≠ [] →
      Words d x (setNames d x ++ [('0' :: 'x' :: digits)])

end Spec

open Spec

/-- The table in the code that belongs to a declaration. -/
def tableFor (d : Declared) : FlagTable := d.map fun f => (f.2.toList, 2 ^ f.1)

theorem tables : attributeFlagTable = tableFor attributeFlags ∧ fileFlagTable = tableFor fileFlags ∧
    indexEntryFlagTable = tableFor entryFlags ∧ fileAttributeTable = tableFor fileAttributes ∧
    volumeFlagTable = tableFor volumeFlags := by
  refine ⟨rfl, rfl, rfl, rfl, rfl⟩

theorem and_two_pow_eq (x i : Nat) : x &&& 2 ^ i = if x.testBit i then 2 ^ i else 0 := by
  apply Nat.eq_of_testBit_eq
  intro k
  rw [Nat.testBit_and, Nat.testBit_two_pow]
  split
  · next h =>
    rw [Nat.testBit_two_pow]
    by_cases e : i = k
    · subst e; simp [h]
    · simp [e]
  · next h =>
    rw [Nat.zero_testBit]
    by_cases e : i = k
    · subst e; simpa using h
    · simp [e]

theorem flag_set {x r i : Nat} (h : r.testBit i = x.testBit i) :
    (x &&& 2 ^ i = 2 ^ i ∧ r &&& 2 ^ i ≠ 0) ↔ x.testBit i = true := by
  rw [and_two_pow_eq, and_two_pow_eq, h]
  have : 0 < 2 ^ i := Nat.two_pow_pos i
  cases x.testBit i <;> simp <;> omega

theorem iterNames_spec (x : Nat) : ∀ (d : Declared) (r : Nat), (d.map (·.1)).Nodup →
    (∀ f ∈ d, r.testBit f.1 = x.testBit f.1) →
    (iterNames x (tableFor d) r).1 = setNames d x ∧ Rest d r (iterNames x (tableFor d) r).2
  | [], r, _, _ => ⟨rfl, fun k => by simp [iterNames, tableFor]⟩
  | (i, s) :: d, r, hn, hr => by
    have hn' := List.nodup_cons.1 hn
    have hi : r.testBit i = x.testBit i := hr (i, s) (List.mem_cons_self ..)
    show _ ∧ Rest _ _ (iterNames x ((s.toList, 2 ^ i) :: tableFor d) r).2
    show (iterNames x ((s.toList, 2 ^ i) :: tableFor d) r).1 = _ ∧ _
    unfold iterNames
    split
    · next h0 =>
      subst h0
      refine ⟨?_, fun k => by simp⟩
      have : ((i, s) :: d).filter (fun f => x.testBit f.1) = [] := by
        rw [List.filter_eq_nil_iff]
        intro f hf
        rw [← hr f hf]
        simp
      rw [setNames, this]
      rfl
    · split
      · next hx =>
        replace hx := (flag_set hi).1 hx
        have hbit : ∀ k, (r ^^^ (r &&& 2 ^ i)).testBit k = (r.testBit k && decide (i ≠ k)) := by
          intro k
          rw [Nat.testBit_xor, Nat.testBit_and, Nat.testBit_two_pow]
          cases r.testBit k <;> by_cases h : i = k <;> simp [h]
        obtain ⟨h1, h2⟩ := iterNames_spec x d (r ^^^ (r &&& 2 ^ i)) hn'.2 (by
          intro f hf
          rw [hbit, hr f (List.mem_cons_of_mem _ hf)]
          have : i ≠ f.1 := fun e => hn'.1 (List.mem_map.2 ⟨f, hf, e.symm⟩)
          simp [this])
        refine ⟨?_, fun k => ?_⟩
        · dsimp only
          rw [h1]
          simp [setNames, hx]
        · dsimp only
          rw [h2 k, hbit]
          simp only [List.map_cons, List.mem_cons, not_or]
          by_cases h : i = k
          · subst h; simp
          · have : ¬ k = i := fun e => h e.symm
            simp [h, this]
      · next hx =>
        replace hx := mt (flag_set hi).2 hx
        obtain ⟨h1, h2⟩ := iterNames_spec x d r hn'.2 (fun f hf => hr f (List.mem_cons_of_mem _ hf))
        refine ⟨?_, fun k => ?_⟩
        · rw [h1]
          simp [setNames, hx]
        · rw [h2 k]
          simp only [List.map_cons, List.mem_cons, not_or]
          by_cases h : k = i
          · subst h; rw [hi]; simp [hx]
          · simp [h]

theorem writeNames_false : ∀ ws, writeNames false ws = (match ws with | [] => [] | _ => [' ', '|', ' '] ++ barred ws, false)
  | [] => rfl
  | [w] => by simp [writeNames, barred]
  | w :: v :: ws => by
    have ih := writeNames_false (v :: ws)
    rw [writeNames, ih]
    simp [barred]

theorem writeNames_true (ws : List (List Char)) : writeNames true ws = (barred ws, ws.isEmpty) := by
  cases ws with
  | nil => rfl
  | cons w ws =>
    rw [writeNames, writeNames_false]
    cases ws <;> simp [barred]

theorem barred_snoc : ∀ (ws : List (List Char)) (w : List Char), ws ≠ [] →
    barred (ws ++ [w]) = barred ws ++ [' ', '|', ' '] ++ w
  | [], _, h => absurd rfl h
  | [v], w, _ => by simp [barred]
  | u :: v :: ws, w, _ => by
    have ih := barred_snoc (v :: ws) w (by simp)
    simp only [List.cons_append] at ih ⊢
    rw [barred, ih, barred]
    simp [List.append_assoc]

/-- The declarations of the crate. -/
def Declarations (d : Declared) : Prop :=
  d = attributeFlags ∨ d = fileFlags ∨ d = entryFlags ∨ d = fileAttributes ∨ d = volumeFlags

theorem Declarations.nodup {d : Declared} (h : Declarations d) : (d.map (·.1)).Nodup := by
  rcases h with rfl | rfl | rfl | rfl | rfl <;> decide

/-- **C74**: the text of any flags, also of such with bits that no flag is declared for: the names of the flags that
are set in the order of the declaration, then the other bits as a hexadecimal number, with bars between. -/
theorem C74_text (d : Declared) (hd : Declarations d) (x : Nat) :
    ∃ ws, Words d x ws ∧ flagsDisplay (tableFor d) x = barred ws := by
  obtain ⟨h1, h2⟩ := iterNames_spec x d x hd.nodup (fun _ _ => rfl)
  unfold flagsDisplay
  dsimp only
  rw [writeNames_true, h1]
  split
  · next h0 =>
    rw [h0] at h2
    exact ⟨_, .names h2, rfl⟩
  · next h0 =>
    refine ⟨_, .more h0 h2 (hexValue_lowerHex _) (fun c hc => lowerHex_digit _ hc) (lowerHex_ne_nil _), ?_⟩
    dsimp only
    cases hs : setNames d x with
    | nil => simp [barred]
    | cons w ws => rw [barred_snoc _ _ (by simp)]; simp

/-! ### The text tells -/

/-- A word without a space in it. -/
def Word (w : List Char) : Prop := w ≠ [] ∧ ' ' ∉ w

theorem word_cut {w v a b : List Char} (hw : Word w) (hv : Word v)
    (ha : a = [] ∨ ∃ c, a = ' ' :: c) (hb : b = [] ∨ ∃ c, b = ' ' :: c) (h : w ++ a = v ++ b) : w = v ∧ a = b := by
  have key : ∀ {w a : List Char}, ' ' ∉ w → (a = [] ∨ ∃ c, a = ' ' :: c) → (w ++ a).takeWhile (· ≠ ' ') = w := by
    intro w a hw ha
    have h1 : ∀ c ∈ w, decide (c ≠ ' ') = true := fun c hc => by
      simp only [decide_eq_true_eq]; rintro rfl; exact hw hc
    rw [List.takeWhile_append_of_pos h1]
    rcases ha with rfl | ⟨c, rfl⟩ <;> simp
  have := congrArg (List.takeWhile (· ≠ ' ')) h
  rw [key hw.2 ha, key hv.2 hb] at this
  subst this
  exact ⟨rfl, List.append_cancel_left h⟩

theorem barred_injective : ∀ (ws vs : List (List Char)), (∀ w ∈ ws, Word w) → (∀ v ∈ vs, Word v) →
    barred ws = barred vs → ws = vs := by
  have tail : ∀ ws : List (List Char), ∃ a, (∀ w, barred (w :: ws) = w ++ a) ∧ (a = [] ∨ ∃ c, a = ' ' :: c) ∧
      (ws = [] → a = []) ∧ (∀ v us, ws = v :: us → a = [' ', '|', ' '] ++ barred ws) := by
    intro ws
    cases ws with
    | nil => exact ⟨[], fun w => by simp [barred], .inl rfl, fun _ => rfl, fun _ _ h => (by cases h)⟩
    | cons v ws =>
      exact ⟨[' ', '|', ' '] ++ barred (v :: ws), fun w => by simp [barred], .inr ⟨_, rfl⟩, fun h => (by cases h),
        fun _ _ _ => rfl⟩
  intro ws
  induction ws with
  | nil =>
    intro vs _ hv h
    cases vs with
    | nil => rfl
    | cons v vs =>
      obtain ⟨a, h1, _⟩ := tail vs
      rw [h1 v] at h
      have := (hv v (List.mem_cons_self ..)).1
      simp [barred] at h
      exact absurd h.1 this
  | cons w ws ih =>
    intro vs hw hv h
    obtain ⟨a, h1, h2, h3, h4⟩ := tail ws
    cases vs with
    | nil =>
      rw [h1 w] at h
      have := (hw w (List.mem_cons_self ..)).1
      simp [barred] at h
      exact absurd h.1 this
    | cons v vs =>
      obtain ⟨b, g1, g2, g3, g4⟩ := tail vs
      rw [h1 w, g1 v] at h
      obtain ⟨e1, e2⟩ := word_cut (hw w (List.mem_cons_self ..)) (hv v (List.mem_cons_self ..)) h2 g2 h
      subst e1
      cases ws with
      | nil =>
        cases vs with
        | nil => rfl
        | cons v' vs' =>
          rw [h3 rfl, g4 v' vs' rfl] at e2
          simp at e2
      | cons w' ws' =>
        cases vs with
        | nil =>
          rw [g3 rfl, h4 w' ws' rfl] at e2
          simp at e2
        | cons v' vs' =>
          rw [h4 w' ws' rfl, g4 v' vs' rfl] at e2
          rw [ih _ (fun x hx => hw x (List.mem_cons_of_mem _ hx)) (fun x hx => hv x (List.mem_cons_of_mem _ hx))
            (List.append_cancel_left e2)]

/-- What is used about the names: they are words, do not begin with a zero, and differ. -/
theorem Declarations.names {d : Declared} (h : Declarations d) :
    (∀ f ∈ d, Word f.2.toList ∧ f.2.toList.head? ≠ some '0') ∧
    ∀ f ∈ d, ∀ g ∈ d, f.2.toList = g.2.toList → f = g := by
  unfold Word
  rcases h with rfl | rfl | rfl | rfl | rfl <;> decide

theorem Spec.Words.words {d : Declared} (h : Declarations d) {x : Nat} {ws : List (List Char)} (hw : Words d x ws) :
    ∀ w ∈ ws, Word w := by
  have hn : ∀ w ∈ setNames d x, Word w := by
    intro w hw
    obtain ⟨f, hf, rfl⟩ := List.mem_map.1 hw
    exact (h.names.1 f (List.mem_filter.1 hf).1).1
  cases hw with
  | names _ => exact hn
  | @more r digits _ _ _ hdig _ =>
    intro w hw
    rcases List.mem_append.1 hw with hw | hw
    · exact hn w hw
    · rw [List.mem_singleton] at hw
      subst hw
      refine ⟨by simp, fun hs => ?_⟩
      simp only [List.mem_cons] at hs
      rcases hs with hs | hs | hs
      · exact absurd hs (by decide)
      · exact absurd hs (by decide)
      · have := hdig _ hs
        have e : (' ' : Char).toNat = 32 := rfl
        omega

/-- The words determine the bits. -/
theorem Spec.Words.bits {d : Declared} (h : Declarations d) {x y : Nat} {ws : List (List Char)}
    (hx : Words d x ws) (hy : Words d y ws) : x = y := by
  have part : ∀ {z}, Words d z ws → ws.filter (fun w => w.head? ≠ some '0') = setNames d z ∧
      ∃ r, Rest d z r ∧ (ws.filter fun w => w.head? = some '0') =
        (match r with | 0 => [] | _ => ws.filter fun w => w.head? = some '0') ∧
        (∀ w ∈ ws, w.head? = some '0' → hexValue (w.drop 2) = r) ∧ (r ≠ 0 → ∃ w ∈ ws, w.head? = some '0') := by
    intro z hz
    have hn : ∀ w ∈ setNames d z, w.head? ≠ some '0' := by
      intro w hw
      obtain ⟨f, hf, rfl⟩ := List.mem_map.1 hw
      exact (h.names.1 f (List.mem_filter.1 hf).1).2
    have h1 : (setNames d z).filter (fun w => w.head? ≠ some '0') = setNames d z :=
      List.filter_eq_self.2 fun w hw => by simpa using hn w hw
    have h2 : (setNames d z).filter (fun w => w.head? = some '0') = [] :=
      List.filter_eq_nil_iff.2 fun w hw => by simpa using hn w hw
    cases hz with
    | names hr => exact ⟨h1, 0, hr, h2, fun w hw h0 => absurd h0 (hn w hw), fun h => absurd rfl h⟩
    | @more r digits h0 hr hv _ _ =>
      refine ⟨?_, r, hr, ?_, ?_, fun _ => ⟨_, List.mem_append_right _ (List.mem_singleton.2 rfl), rfl⟩⟩
      · rw [List.filter_append, h1]; simp
      · cases r with
        | zero => exact absurd rfl h0
        | succ r => rfl
      · intro w hw hw0
        rcases List.mem_append.1 hw with hw | hw
        · exact absurd hw0 (hn w hw)
        · rw [List.mem_singleton] at hw
          subst hw
          exact hv
  obtain ⟨a1, r, a2, a3, a4, a5⟩ := part hx
  obtain ⟨b1, s, b2, b3, b4, b5⟩ := part hy
  have hrs : r = s := by
    by_cases h0 : r = 0
    · by_cases h1 : s = 0
      · omega
      · obtain ⟨w, hw, hw0⟩ := b5 h1
        rw [← a4 w hw hw0, b4 w hw hw0]
    · obtain ⟨w, hw, hw0⟩ := a5 h0
      rw [← a4 w hw hw0, b4 w hw hw0]
  subst hrs
  have hs : setNames d x = setNames d y := a1.symm.trans b1
  have mem : ∀ z, ∀ f ∈ d, (z.testBit f.1 = true ↔ f.2.toList ∈ setNames d z) := by
    intro z f hf
    constructor
    · intro hz
      exact List.mem_map.2 ⟨f, List.mem_filter.2 ⟨hf, hz⟩, rfl⟩
    · intro hm
      obtain ⟨g, hg, e⟩ := List.mem_map.1 hm
      have hg := List.mem_filter.1 hg
      have := h.names.2 g hg.1 f hf e
      subst this
      exact hg.2
  apply Nat.eq_of_testBit_eq
  intro k
  by_cases hk : k ∈ d.map (·.1)
  · obtain ⟨f, hf, rfl⟩ := List.mem_map.1 hk
    rw [Bool.eq_iff_iff, mem x f hf, mem y f hf, hs]
  · have h1 := a2 k
    have h2 := b2 k
    simp only [hk, not_false_eq_true, decide_true, Bool.and_true] at h1 h2
    rw [← h1, ← h2]

/-- **C74**: the text tells flags apart. -/
theorem C74_tells (d : Declared) (hd : Declarations d) (x y : Nat) :
    flagsDisplay (tableFor d) x = flagsDisplay (tableFor d) y ↔ x = y := by
  refine ⟨fun h => ?_, fun h => by rw [h]⟩
  obtain ⟨ws, h1, h2⟩ := C74_text d hd x
  obtain ⟨vs, g1, g2⟩ := C74_text d hd y
  rw [h2, g2] at h
  have := barred_injective ws vs (h1.words hd) (g1.words hd) h
  subst this
  exact h1.bits hd g1

/-! ### The flags that the crate gives out -/

/-- The value `x` has exactly the declared bits of what is stored, `raw`. -/
def Keeps (d : Declared) (raw x : Nat) : Prop :=
  ∀ k, x.testBit k = (raw.testBit k && decide (k ∈ d.map (·.1)))

theorem Keeps.names {d : Declared} {raw x : Nat} (h : Keeps d raw x) : setNames d x = setNames d raw := by
  unfold setNames
  congr 1
  apply List.filter_congr
  intro f hf
  rw [h f.1]
  simp only [List.mem_map_of_mem hf, decide_true, Bool.and_true]

theorem Keeps.text {d : Declared} (hd : Declarations d) {raw x : Nat} (h : Keeps d raw x) :
    flagsDisplay (tableFor d) x = barred (setNames d raw) := by
  obtain ⟨ws, h1, h2⟩ := C74_text d hd x
  rw [h2]
  cases h1 with
  | names _ => rw [h.names]
  | @more r digits h0 hr _ _ _ =>
    exfalso
    apply h0
    apply Nat.eq_of_testBit_eq
    intro k
    rw [hr k, h k, Nat.zero_testBit]
    by_cases hk : k ∈ d.map (·.1) <;> simp [hk]

theorem keeps_two (x : Nat) : Keeps fileFlags x (x % 4) ∧ Keeps entryFlags x (x % 4) := by
  have h : ∀ k, (x % 4).testBit k = (x.testBit k && decide (k ∈ [0, 1])) := by
    intro k
    rw [show 4 = 2 ^ 2 from rfl, Nat.testBit_mod_two_pow]
    have : decide (k < 2) = decide (k ∈ [0, 1]) := by
      apply decide_eq_decide.2
      simp only [List.mem_cons, List.not_mem_nil, or_false]
      omega
    rw [this, Bool.and_comm]
  exact ⟨h, h⟩

theorem keeps_attribute {x : Nat} (hx : x < 65536) : Keeps attributeFlags x (x % 2 + 0x4000 * (x / 0x4000)) := by
  intro k
  show _ = (x.testBit k && decide (k ∈ [0, 14, 15]))
  have h1 : x % 2 + 0x4000 * (x / 0x4000) = 2 ^ 14 * (x / 2 ^ 14) + x % 2 ^ 1 := Nat.add_comm _ _
  rw [h1, Nat.testBit_two_pow_mul_add _ (by omega)]
  split
  · next hk =>
    rw [Nat.testBit_mod_two_pow]
    have : decide (k < 1) = decide (k ∈ [0, 14, 15]) := by
      apply decide_eq_decide.2
      simp only [List.mem_cons, List.not_mem_nil, or_false]
      omega
    rw [this, Bool.and_comm]
  · next hk =>
    rw [Nat.testBit_div_two_pow, show k - 14 + 14 = k by omega]
    by_cases h : k ∈ [0, 14, 15]
    · simp only [h, decide_true, Bool.and_true]
    · have : x.testBit k = false := by
        apply Nat.testBit_lt_two_pow
        simp only [List.mem_cons, List.not_mem_nil, or_false, not_or] at h
        exact Nat.lt_of_lt_of_le hx (Nat.pow_le_pow_right (by decide : 2 > 0) (by omega : 16 ≤ k))
      rw [this]; rfl

/-- **C74**, file records: `flags()` of a file prints the names of the flags that are set in its record, and
`is_directory()` is true just if one of them is IS_DIRECTORY. -/
theorem C74_file (f : NFile) (h : 24 ≤ f.recordData.length) :
    ∃ x, f.flags = .ok x ∧
      flagsDisplay fileFlagTable x = barred (setNames fileFlags (field f.recordData 22 2)) ∧
      (f.isDirectory = .ok true ↔ "IS_DIRECTORY".toList ∈ setNames fileFlags (field f.recordData 22 2)) ∧
      (f.isDirectory = .ok false ↔ "IS_DIRECTORY".toList ∉ setNames fileFlags (field f.recordData 22 2)) := by
  have e : f.flags = .ok (field f.recordData 22 2 % 4) := by
    unfold NFile.flags
    rw [readLE_ok (by omega)]
    rfl
  have hm : "IS_DIRECTORY".toList ∈ setNames fileFlags (field f.recordData 22 2) ↔
      (field f.recordData 22 2).testBit 1 = true := by
    generalize field f.recordData 22 2 = x
    have : setNames fileFlags x = (if x.testBit 0 then ["IN_USE".toList] else []) ++
        (if x.testBit 1 then ["IS_DIRECTORY".toList] else []) := by
      unfold setNames fileFlags
      cases h0 : x.testBit 0 <;> cases h1 : x.testBit 1 <;> simp [List.filter, h0, h1]
    rw [this]
    cases x.testBit 0 <;> cases x.testBit 1 <;> decide
  have hi : f.isDirectory = .ok ((field f.recordData 22 2).testBit 1) := by
    unfold NFile.isDirectory
    rw [e]
    show Res.ok _ = _
    congr 1
    generalize field f.recordData 22 2 = x
    rw [Nat.testBit_eq_decide_div_mod_eq]
    show decide (x % 4 / 2 % 2 = 1) = _
    apply decide_eq_decide.2
    omega
  refine ⟨_, e, Keeps.text (.inr (.inl rfl)) (keeps_two _).1, ?_, ?_⟩
  · rw [hi, hm]; simp
  · rw [hi, hm]; simp

/-- **C74**, attributes: `flags()`. -/
theorem C74_attribute (a : Attr) (h : a.offset + 14 ≤ a.recordData.length) :
    ∃ x, a.flags = .ok x ∧
      flagsDisplay attributeFlagTable x = barred (setNames attributeFlags (field a.recordData (a.offset + 12) 2)) := by
  refine ⟨field a.recordData (a.offset + 12) 2 % 2 + 0x4000 * (field a.recordData (a.offset + 12) 2 / 0x4000), ?_, ?_⟩
  · unfold Attr.flags
    rw [readLE_ok (by omega)]
    rfl
  · exact Keeps.text (.inl rfl) (keeps_attribute (by have := field_lt (n := 2) (d := a.recordData) (a := a.offset + 12) (by omega); omega))

/-- **C74**, index entries: `flags()`. -/
theorem C74_index_entry (e : IEntry) (h : 13 ≤ e.slice.length) :
    ∃ x, e.flags = .ok x ∧
      flagsDisplay indexEntryFlagTable x = barred (setNames entryFlags (field e.slice 12 1)) := by
  refine ⟨field e.slice 12 1 % 4, ?_, Keeps.text (.inr (.inr (.inl rfl))) (keeps_two _).2⟩
  unfold IEntry.flags
  rw [idxByte_ok (by omega)]
  rfl

/-- **C74**, structured values: `file_attributes()` of standard information and file names, and `flags()` of the volume
information, print the names of the flags that are set in the value. (`C38_standard_information`, `C38_file_name` and
`C38_volume_information`: the left sides are what reading the attribute gives.) -/
theorem C74_structured (b : Bytes) (p : Pos) (len : Nat) :
    (∀ i, stdInfoRes b p len = .ok i →
      flagsDisplay fileAttributeTable i.fileAttributes = barred (setNames Spec.fileAttributes (field b 32 4))) ∧
    (∀ n, fileNameRes b p len = .ok n →
      flagsDisplay fileAttributeTable n.fileAttributes = barred (setNames Spec.fileAttributes (field b 56 4)) ∧
      (n.isDirectory = true ↔ "IS_DIRECTORY".toList ∈ setNames Spec.fileAttributes (field b 56 4))) ∧
    (∀ v, volumeInfoRes b p len = .ok v →
      flagsDisplay volumeFlagTable v.flags = barred (setNames volumeFlags (field b 10 2))) := by
  refine ⟨fun i hi => ?_, fun n hn => ⟨?_, ?_⟩, fun v hv => ?_⟩
  · have : i.rawFileAttributes = field b 32 4 := by
      unfold stdInfoRes at hi
      by_cases h1 : len < 48
      · rw [if_pos h1] at hi; cases hi
      · rw [if_neg h1] at hi
        by_cases h2 : b.length < (if 72 ≤ len then 72 else 36)
        · rw [if_pos h2] at hi; cases hi
        · rw [if_neg h2] at hi; cases hi; rfl
    rw [← this]
    exact Keeps.text (.inr (.inr (.inr (.inl rfl)))) fun k => (C38_flags i (fileNameAt []) ⟨0, 0, 0⟩ k).1
  · have : n.rawFileAttributes = field b 56 4 := by
      unfold fileNameRes at hn
      repeat (split at hn; · cases hn)
      cases hn; rfl
    rw [← this]
    exact Keeps.text (.inr (.inr (.inr (.inl rfl)))) fun k => (C38_flags (stdInfoAt [] false) n ⟨0, 0, 0⟩ k).2.1
  · have : n.rawFileAttributes = field b 56 4 := by
      unfold fileNameRes at hn
      repeat (split at hn; · cases hn)
      cases hn; rfl
    rw [← this, (C38_flags (stdInfoAt [] false) n ⟨0, 0, 0⟩ 0).2.2.2]
    generalize n.rawFileAttributes = x
    constructor
    · intro hx
      exact List.mem_map.2 ⟨(28, "IS_DIRECTORY"), List.mem_filter.2 ⟨by decide, hx⟩, rfl⟩
    · intro hm
      obtain ⟨g, hg, e⟩ := List.mem_map.1 hm
      have hg := List.mem_filter.1 hg
      have hd : Declarations Spec.fileAttributes := .inr (.inr (.inr (.inl rfl)))
      have := hd.names.2 g hg.1 (28, "IS_DIRECTORY") (by decide) e
      subst this
      exact hg.2
  · have : v.rawFlags = field b 10 2 := by
      unfold volumeInfoRes at hv
      repeat (split at hv; · cases hv)
      cases hv; rfl
    rw [← this]
    exact Keeps.text (.inr (.inr (.inr (.inr rfl)))) fun k =>
      (C38_flags (stdInfoAt [] false) (fileNameAt []) v k).2.2.1

/-- **C74**: two stored values print the same just if they agree in all declared flags: a flag that is not declared
is not shown. -/
theorem C74_shown (d : Declared) (hd : Declarations d) (raw raw' x x' : Nat) (h : Keeps d raw x) (h' : Keeps d raw' x') :
    flagsDisplay (tableFor d) x = flagsDisplay (tableFor d) x' ↔
      ∀ k ∈ d.map (·.1), raw.testBit k = raw'.testBit k := by
  rw [C74_tells d hd]
  constructor
  · rintro rfl k hk
    have h1 := h k
    have h2 := h' k
    simp only [hk, decide_true, Bool.and_true] at h1 h2
    rw [← h1, ← h2]
  · intro hk
    apply Nat.eq_of_testBit_eq
    intro k
    rw [h k, h' k]
    by_cases hm : k ∈ d.map (·.1)
    · rw [hk k hm]
    · simp only [hm, decide_false, Bool.and_false]

/-- The documentation of IS_DIRECTORY says that it is "only returned from `NtfsFileName::file_attributes`". The code
does not see to that: standard information with this bit returns and prints it. -/
theorem C74_directory_negation : ∃ b i, stdInfoRes b none 48 = .ok i ∧
    flagsDisplay fileAttributeTable i.fileAttributes = "HIDDEN | IS_DIRECTORY".toList :=
  ⟨List.replicate 32 0 ++ [2, 0, 0, 0x10] ++ List.replicate 12 0, _, rfl, by decide +kernel⟩

/-! ### Examples -/

example : flagsDisplay fileAttributeTable 0x10000023 = "READ_ONLY | HIDDEN | ARCHIVE | IS_DIRECTORY".toList ∧
    flagsDisplay fileFlagTable 0 = [] ∧ flagsDisplay fileFlagTable 0xF3 = "IN_USE | IS_DIRECTORY | 0xf0".toList ∧
    flagsDisplay volumeFlagTable 0x40 = "0x40".toList := by decide +kernel

example := C74_text Spec.fileAttributes (.inr (.inr (.inr (.inl rfl)))) 0x10000023
example : flagsDisplay (tableFor volumeFlags) 3 ≠ flagsDisplay (tableFor volumeFlags) 1 :=
  fun h => absurd ((C74_tells _ (.inr (.inr (.inr (.inr rfl)))) 3 1).1 h) (by decide)
example : ∃ f : NFile, 24 ≤ f.recordData.length ∧ f.flags = .ok 3 ∧ f.isDirectory = .ok true :=
  ⟨⟨exNtfs, ⟨List.replicate 22 0 ++ [0xFF, 0xFF], none⟩, 0⟩, by decide, by decide, by decide⟩
example := C74_file ⟨exNtfs, ⟨List.replicate 22 0 ++ [0xFF, 0xFF], none⟩, 0⟩ (by decide)
example := C74_attribute ⟨exFileNameFile, 0, none⟩ (by decide)
example := C74_index_entry ⟨List.replicate 12 0 ++ [7, 0, 0, 0], none⟩ (by decide)
example : ∃ n, fileNameRes exFileName none 70 = .ok n ∧
    flagsDisplay fileAttributeTable n.fileAttributes = "HIDDEN | SYSTEM | IS_DIRECTORY".toList :=
  ⟨_, rfl, by decide +kernel⟩
example := C74_shown fileFlags (.inr (.inl rfl)) 0xF3 3 3 3 (keeps_two 0xF3).1 (keeps_two 3).1

end NT
