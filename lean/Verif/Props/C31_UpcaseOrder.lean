import Verif.Model.Upcase
import Verif.Lemmas.Attribute

namespace NT

/-- `t` maps every 16-bit code unit to a code unit. -/
def Spec.TableOk (t : List Nat) : Prop := t.length = 65536

/-- The code units of a string are 16-bit numbers. -/
def Spec.Units (s : List Nat) : Prop := ∀ c ∈ s, c < U16

/-- `s` in upper case is `u`: code unit by code unit, the entry of the table at the code unit. -/
inductive Spec.Upper (t : List Nat) : List Nat → List Nat → Prop
  | nil : Spec.Upper t [] []
  | cons {c x : Nat} {s u : List Nat} : t[c]? = some x → Spec.Upper t s u → Spec.Upper t (c :: s) (x :: u)

open Spec

theorem upper_exists (t s : List Nat) (ht : TableOk t) (hs : Units s) : ∃ u, Upper t s u := by
  induction s with
  | nil => exact ⟨[], .nil⟩
  | cons c s ih =>
    obtain ⟨u, hu⟩ := ih fun c hc => hs c (by simp [hc])
    have hc : c < t.length := by rw [ht]; exact hs c (by simp)
    exact ⟨t[c] :: u, .cons (List.getElem?_eq_getElem hc) hu⟩

theorem upper_unique {t s u v : List Nat} (h : Upper t s u) (h' : Upper t s v) : u = v := by
  induction h generalizing v with
  | nil => cases h'; rfl
  | cons e _ ih =>
    cases h' with
    | cons e' h' =>
      rw [e] at e'
      injection e' with e'
      rw [e', ih h']

theorem upper_length {t s u : List Nat} (h : Upper t s u) : u.length = s.length := by
  induction h with
  | nil => rfl
  | cons _ _ ih => simp [ih]

/-- The comparison in terms of the upper case strings. -/
theorem upcaseCmpLoop_spec {t a b u v : List Nat} (ha : Upper t a u) (hb : Upper t b v) :
    (u < v → upcaseCmpLoop t a b = .ok .lt) ∧ (u = v → upcaseCmpLoop t a b = .ok .eq) ∧
    (v < u → upcaseCmpLoop t a b = .ok .gt) := by
  induction ha generalizing b v with
  | nil =>
    cases hb with
    | nil =>
      refine ⟨fun h => ?_, fun _ => rfl, fun h => ?_⟩ <;> exact absurd h (List.lt_irrefl _)
    | cons => exact ⟨fun _ => rfl, fun h => (by cases h), fun h => absurd h (List.not_lt_nil _)⟩
  | @cons c x a u ec _ ih =>
    cases hb with
    | nil => exact ⟨fun h => absurd h (List.not_lt_nil _), fun h => (by cases h), fun _ => rfl⟩
    | @cons c' y b v ec' hb =>
      obtain ⟨i1, i2, i3⟩ := ih hb
      have e1 : u16ToUppercase t c = .ok x := by unfold u16ToUppercase; rw [ec]
      have e2 : u16ToUppercase t c' = .ok y := by unfold u16ToUppercase; rw [ec']
      rw [upcaseCmpLoop, e1, Res.bind_ok, e2, Res.bind_ok]
      by_cases hxy : x = y
      · subst hxy
        rw [if_neg (by simp)]
        refine ⟨fun h => i1 ?_, fun h => i2 (List.cons.inj h).2, fun h => i3 ?_⟩
        · simpa [List.cons_lt_cons_iff] using h
        · simpa [List.cons_lt_cons_iff] using h
      · rw [if_pos hxy]
        refine ⟨fun h => ?_, fun h => absurd (List.cons.inj h).1 hxy, fun h => ?_⟩
        · rcases List.cons_lt_cons_iff.1 h with h | h
          · rw [Nat.compare_eq_lt.2 h]; rfl
          · exact absurd h.1 hxy
        · rcases List.cons_lt_cons_iff.1 h with h | h
          · rw [Nat.compare_eq_gt.2 h]; rfl
          · exact absurd h.1.symm hxy

theorem list_trichotomy (u v : List Nat) : u < v ∨ u = v ∨ v < u := by
  induction u generalizing v with
  | nil => cases v with
    | nil => exact .inr (.inl rfl)
    | cons => exact .inl (List.nil_lt_cons _ _)
  | cons x u ih =>
    cases v with
    | nil => exact .inr (.inr (List.nil_lt_cons _ _))
    | cons y v =>
      rcases Nat.lt_trichotomy x y with h | rfl | h
      · exact .inl (List.cons_lt_cons_iff.2 (.inl h))
      · rcases ih v with h | rfl | h
        · exact .inl (List.cons_lt_cons_iff.2 (.inr ⟨rfl, h⟩))
        · exact .inr (.inl rfl)
        · exact .inr (.inr (List.cons_lt_cons_iff.2 (.inr ⟨rfl, h⟩)))
      · exact .inr (.inr (List.cons_lt_cons_iff.2 (.inl h)))

/-- C31, the meaning: after `read_upcase_table`, comparing two strings never panics and is the
lexicographic order of their upper case forms; in particular it is Equal iff these are the same. -/
theorem C31_lexicographic (n : Ntfs) (t : List Nat) (hn : n.upcaseTable = some t)
    (a b u v : List Nat) (ha : Upper t a u) (hb : Upper t b v) :
    (upcaseCmp n a b = .ok .lt ↔ u < v) ∧ (upcaseCmp n a b = .ok .eq ↔ u = v) ∧
    (upcaseCmp n a b = .ok .gt ↔ v < u) := by
  have e : upcaseCmp n a b = upcaseCmpLoop t a b := by
    unfold upcaseCmp Ntfs.upcase; rw [hn]; rfl
  obtain ⟨h1, h2, h3⟩ := upcaseCmpLoop_spec ha hb
  rw [e]
  rcases list_trichotomy u v with h | h | h
  · rw [h1 h]
    refine ⟨⟨fun _ => h, fun _ => rfl⟩, ⟨fun x => (by cases x), fun x => ?_⟩, ⟨fun x => (by cases x), fun x => ?_⟩⟩
    · subst x; exact absurd h (List.lt_irrefl _)
    · exact absurd (List.lt_trans h x) (List.lt_irrefl _)
  · subst h
    rw [h2 rfl]
    refine ⟨⟨fun x => (by cases x), fun x => ?_⟩, ⟨fun _ => rfl, fun _ => rfl⟩, ⟨fun x => (by cases x), fun x => ?_⟩⟩ <;>
      exact absurd x (List.lt_irrefl _)
  · rw [h3 h]
    refine ⟨⟨fun x => (by cases x), fun x => ?_⟩, ⟨fun x => (by cases x), fun x => ?_⟩, ⟨fun _ => h, fun _ => rfl⟩⟩
    · exact absurd (List.lt_trans h x) (List.lt_irrefl _)
    · subst x; exact absurd h (List.lt_irrefl _)

/-- C31: the comparison of two strings always gives an ordering. -/
theorem C31_total (n : Ntfs) (t : List Nat) (hn : n.upcaseTable = some t) (ht : TableOk t)
    (a b : List Nat) (ha : Units a) (hb : Units b) : ∃ o, upcaseCmp n a b = .ok o := by
  obtain ⟨u, hu⟩ := upper_exists t a ht ha
  obtain ⟨v, hv⟩ := upper_exists t b ht hb
  obtain ⟨h1, h2, h3⟩ := C31_lexicographic n t hn a b u v hu hv
  rcases list_trichotomy u v with h | h | h
  · exact ⟨_, h1.2 h⟩
  · exact ⟨_, h2.2 h⟩
  · exact ⟨_, h3.2 h⟩

/-- C31: reflexivity. -/
theorem C31_refl (n : Ntfs) (t : List Nat) (hn : n.upcaseTable = some t) (ht : TableOk t)
    (a : List Nat) (ha : Units a) : upcaseCmp n a a = .ok .eq := by
  obtain ⟨u, hu⟩ := upper_exists t a ht ha
  exact (C31_lexicographic n t hn a a u u hu hu).2.1.2 rfl

/-- C31: exchanging the strings reverses the result. -/
theorem C31_swap (n : Ntfs) (t : List Nat) (hn : n.upcaseTable = some t) (ht : TableOk t)
    (a b : List Nat) (ha : Units a) (hb : Units b) (o : Ordering) (h : upcaseCmp n a b = .ok o) :
    upcaseCmp n b a = .ok o.swap := by
  obtain ⟨u, hu⟩ := upper_exists t a ht ha
  obtain ⟨v, hv⟩ := upper_exists t b ht hb
  obtain ⟨h1, h2, h3⟩ := C31_lexicographic n t hn a b u v hu hv
  obtain ⟨g1, g2, g3⟩ := C31_lexicographic n t hn b a v u hv hu
  cases o with
  | lt => exact g3.2 (h1.1 h)
  | eq => exact g2.2 (h2.1 h).symm
  | gt => exact g1.2 (h3.1 h)

/-- C31: transitivity. "Not greater" is transitive, and strictly so if one of the steps is strict. -/
theorem C31_trans (n : Ntfs) (t : List Nat) (hn : n.upcaseTable = some t) (ht : TableOk t)
    (a b c : List Nat) (ha : Units a) (hb : Units b) (hc : Units c) (o o' : Ordering)
    (hab : upcaseCmp n a b = .ok o) (hbc : upcaseCmp n b c = .ok o') (ho : o ≠ .gt) (ho' : o' ≠ .gt) :
    upcaseCmp n a c = .ok (if o = .lt ∨ o' = .lt then .lt else .eq) := by
  obtain ⟨u, hu⟩ := upper_exists t a ht ha
  obtain ⟨v, hv⟩ := upper_exists t b ht hb
  obtain ⟨w, hw⟩ := upper_exists t c ht hc
  obtain ⟨h1, h2, h3⟩ := C31_lexicographic n t hn a b u v hu hv
  obtain ⟨g1, g2, g3⟩ := C31_lexicographic n t hn b c v w hv hw
  obtain ⟨k1, k2, k3⟩ := C31_lexicographic n t hn a c u w hu hw
  cases o with
  | gt => exact absurd rfl ho
  | lt =>
    rw [if_pos (.inl rfl)]
    cases o' with
    | gt => exact absurd rfl ho'
    | lt => exact k1.2 (List.lt_trans (h1.1 hab) (g1.1 hbc))
    | eq => exact k1.2 (g2.1 hbc ▸ h1.1 hab)
  | eq =>
    cases o' with
    | gt => exact absurd rfl ho'
    | lt =>
      rw [if_pos (.inr rfl)]
      exact k1.2 (h2.1 hab ▸ g1.1 hbc)
    | eq =>
      rw [if_neg (by simp)]
      exact k2.2 ((h2.1 hab).trans (g2.1 hbc))

/-- C31: without `read_upcase_table` the comparison panics, as documented, even for empty strings. -/
theorem C31_panics_without_table (n : Ntfs) (hn : n.upcaseTable = none) (a b : List Nat) :
    upcaseCmp n a b = .panic .unwrap := by
  unfold upcaseCmp Ntfs.upcase; rw [hn]; rfl

/-- A table that maps the letters a-z to A-Z and everything else to itself. -/
def exTable : List Nat := (List.range 65536).map fun c => if 97 ≤ c ∧ c ≤ 122 then c - 32 else c

theorem exTable_ok : TableOk exTable := by
  unfold TableOk exTable; rw [List.length_map, List.length_range]

theorem exTable_get (c : Nat) (h : c < 65536) :
    exTable[c]? = some (if 97 ≤ c ∧ c ≤ 122 then c - 32 else c) := by
  unfold exTable
  rw [List.getElem?_map, List.getElem?_range h]
  rfl

/-- "aB1" and "Ab1" are equal, "ab" comes before "aC" and before "abc". -/
example (n : Ntfs) (hn : n.upcaseTable = some exTable) :
    upcaseCmp n [97, 66, 49] [65, 98, 49] = .ok .eq ∧ upcaseCmp n [97, 98] [97, 67] = .ok .lt ∧
    upcaseCmp n [97, 98] [97, 98, 99] = .ok .lt := by
  have U : ∀ c, c < 65536 → ∀ s u, Upper exTable s u →
      Upper exTable (c :: s) ((if 97 ≤ c ∧ c ≤ 122 then c - 32 else c) :: u) :=
    fun c h s u hu => .cons (exTable_get c h) hu
  have h1 := U 97 (by decide) _ _ (U 66 (by decide) _ _ (U 49 (by decide) _ _ .nil))
  have h2 := U 65 (by decide) _ _ (U 98 (by decide) _ _ (U 49 (by decide) _ _ .nil))
  have h3 := U 97 (by decide) _ _ (U 98 (by decide) _ _ .nil)
  have h4 := U 97 (by decide) _ _ (U 67 (by decide) _ _ .nil)
  have h5 := U 97 (by decide) _ _ (U 98 (by decide) _ _ (U 99 (by decide) _ _ .nil))
  exact ⟨(C31_lexicographic n _ hn _ _ _ _ h1 h2).2.1.2 (by decide),
    (C31_lexicographic n _ hn _ _ _ _ h3 h4).1.2 (by decide),
    (C31_lexicographic n _ hn _ _ _ _ h3 h5).1.2 (by decide)⟩

/-! ### The other theorems of this file on this table -/

theorem exTable_cmp {a b u v : List Nat} (n : Ntfs) (hn : n.upcaseTable = some exTable) (ha : Upper exTable a u) (hb : Upper exTable b v)
    (h : u < v) : upcaseCmp n a b = .ok .lt := (C31_lexicographic n _ hn _ _ _ _ ha hb).1.2 h

theorem exTable_upper (s : List Nat) (h : ∀ c ∈ s, c < 65536) :
    Upper exTable s (s.map fun c => if 97 ≤ c ∧ c ≤ 122 then c - 32 else c) := by
  induction s with
  | nil => exact .nil
  | cons c s ih => exact .cons (exTable_get c (h c (by simp))) (ih fun x hx => h x (by simp [hx]))

example (n : Ntfs) (hn : n.upcaseTable = some exTable) :=
  C31_total n _ hn exTable_ok [97, 66] [65, 98, 49] (by simp [Units]) (by simp [Units])
example (n : Ntfs) (hn : n.upcaseTable = some exTable) := C31_refl n _ hn exTable_ok [97, 66] (by simp [Units])
/-- "ab" comes before "aC" and "aC" before "ad". -/
example (n : Ntfs) (hn : n.upcaseTable = some exTable) : upcaseCmp n [97, 67] [97, 98] = .ok .gt ∧
    upcaseCmp n [97, 98] [97, 100] = .ok .lt := by
  have h1 : upcaseCmp n [97, 98] [97, 67] = .ok .lt :=
    exTable_cmp n hn (exTable_upper _ (by decide)) (exTable_upper _ (by decide)) (by decide)
  have h2 : upcaseCmp n [97, 67] [97, 100] = .ok .lt :=
    exTable_cmp n hn (exTable_upper _ (by decide)) (exTable_upper _ (by decide)) (by decide)
  exact ⟨C31_swap n _ hn exTable_ok _ _ (by simp [Units]) (by simp [Units]) _ h1,
    C31_trans n _ hn exTable_ok _ _ _ (by simp [Units]) (by simp [Units]) (by simp [Units]) _ _ h1 h2 (by decide) (by decide)⟩
example (n : Ntfs) := C31_panics_without_table { n with upcaseTable := none } rfl [97] [65]

end NT
