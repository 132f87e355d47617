import Verif.Model.Guid

namespace NT

/-- The `w` hexadecimal digits of `n` from the most significant one, zeros included. -/
def Spec.hex : Nat → Nat → List Char
  | 0, _ => []
  | w + 1, n => Spec.hex w (n / 16) ++ [hexDigit (n % 16)]

/-- The canonical form of a GUID: 8-4-4-4-12 upper case digits. -/
def Spec.canonical (g : Guid) : List Char :=
  hex 8 g.data1 ++ ['-'] ++ hex 4 g.data2 ++ ['-'] ++ hex 4 g.data3 ++ ['-'] ++
    (g.data4.take 2).flatMap (fun b => hex 2 b.toNat) ++ ['-'] ++
    (g.data4.drop 2).flatMap (fun b => hex 2 b.toNat)

/-- A group of digits whose leading zeros, except for the last digit, are blanks. -/
def Spec.blankZeros : List Char → List Char
  | [] => []
  | [c] => [c]
  | c :: cs => if c = '0' then ' ' :: blankZeros cs else c :: cs

/-- The ranges of the fields, as their Rust types guarantee. -/
structure Guid.InRange (g : Guid) : Prop where
  data1 : g.data1 < 2 ^ 32
  data2 : g.data2 < 2 ^ 16
  data3 : g.data3 < 2 ^ 16
  data4 : g.data4.length = 8

open Spec

theorem hexDigit_inj : ∀ a < 16, ∀ b < 16, hexDigit a = hexDigit b → a = b := by decide

theorem hexDigit_zero : ∀ a < 16, hexDigit a = '0' → a = 0 := by decide

theorem hexDigit_ne_blank : ∀ a < 16, hexDigit a ≠ ' ' := by decide

theorem upperHex_length (w n : Nat) (h : n < 16 ^ (w + 1)) : (upperHex n).length ≤ w + 1 := by
  induction w generalizing n with
  | zero => unfold upperHex; rw [if_pos (by simpa using h)]; simp
  | succ w ih =>
    unfold upperHex
    split
    · simp
    · rw [List.length_append]
      have := ih (n / 16) (by rw [Nat.div_lt_iff_lt_mul (by decide), ← Nat.pow_succ]; exact h)
      simp; omega

theorem fmtX_length (w n : Nat) (h : n < 16 ^ (w + 1)) : (fmtX (w + 1) n).length = w + 1 := by
  have := upperHex_length w n h
  unfold fmtX
  rw [List.length_append, List.length_replicate]; omega

theorem hex_length (w n : Nat) : (hex w n).length = w := by
  induction w generalizing n with
  | zero => rfl
  | succ w ih => simp [hex, ih]

theorem fmtX_step (w n : Nat) (h : 16 ≤ n) :
    fmtX (w + 1) n = fmtX w (n / 16) ++ [hexDigit (n % 16)] := by
  have e : upperHex n = upperHex (n / 16) ++ [hexDigit (n % 16)] := by
    rw [upperHex, if_neg (by omega)]
  unfold fmtX
  rw [e, List.length_append, List.length_singleton, Nat.add_sub_add_right, List.append_assoc]

theorem fmtX_small (w n : Nat) (h : n < 16) :
    fmtX (w + 1) n = List.replicate w ' ' ++ [hexDigit n] := by
  have e : upperHex n = [hexDigit n] := by rw [upperHex, if_pos h]
  unfold fmtX
  rw [e]; rfl

theorem hex_zero (w : Nat) : hex w 0 = List.replicate w '0' := by
  induction w with
  | zero => rfl
  | succ w ih =>
    show hex w 0 ++ [hexDigit 0] = _
    rw [ih, List.replicate_succ']; rfl

theorem blankZeros_zeros (w : Nat) (c : Char) :
    blankZeros (List.replicate w '0' ++ [c]) = List.replicate w ' ' ++ [c] := by
  induction w with
  | zero => rfl
  | succ w ih =>
    rw [List.replicate_succ, List.cons_append, List.replicate_succ, List.cons_append, ← ih]
    cases hl : List.replicate w '0' ++ [c] with
    | nil => simp at hl
    | cons x xs => simp [blankZeros]

/-- Blanking the zeros of a group whose part without the last digit is not all zeros. -/
theorem blankZeros_append (l : List Char) (c : Char) (h : ∃ x ∈ l, x ≠ '0') :
    blankZeros (l ++ [c]) = blankZeros l ++ [c] := by
  induction l with
  | nil => obtain ⟨x, hx, _⟩ := h; cases hx
  | cons a l ih =>
    cases l with
    | nil =>
      obtain ⟨x, hx, hne⟩ := h
      rw [List.mem_singleton] at hx
      subst hx
      simp [blankZeros, hne]
    | cons b l =>
      by_cases ha : a = '0'
      · subst ha
        have : ∃ x ∈ b :: l, x ≠ '0' := by
          obtain ⟨x, hx, hne⟩ := h
          rcases List.mem_cons.1 hx with rfl | hx
          · exact absurd rfl hne
          · exact ⟨x, hx, hne⟩
        have := ih this
        simp only [List.cons_append] at this ⊢
        simp only [blankZeros, if_true, List.cons_append]
        rw [this]
      · simp [blankZeros, ha]

theorem hex_not_zero (w n : Nat) (h : n < 16 ^ w) (h0 : n ≠ 0) : ∃ x ∈ hex w n, x ≠ '0' := by
  induction w generalizing n with
  | zero => simp at h; omega
  | succ w ih =>
    by_cases hd : n / 16 = 0
    · refine ⟨hexDigit (n % 16), by simp [hex], fun he => ?_⟩
      have := hexDigit_zero _ (Nat.mod_lt _ (by decide)) he
      omega
    · obtain ⟨x, hx, hne⟩ := ih (n / 16)
        (by rw [Nat.div_lt_iff_lt_mul (by decide), ← Nat.pow_succ]; exact h) hd
      exact ⟨x, by simp [hex, hx], hne⟩

/-- A formatted group is the group of digits with its leading zeros blanked. -/
theorem fmtX_eq (w n : Nat) (h : n < 16 ^ (w + 1)) : fmtX (w + 1) n = blankZeros (hex (w + 1) n) := by
  induction w generalizing n with
  | zero =>
    have h16 : n < 16 := by simpa using h
    rw [fmtX_small 0 n h16]
    simp [hex, blankZeros, Nat.mod_eq_of_lt h16]
  | succ w ih =>
    have hq : n / 16 < 16 ^ (w + 1) := by
      rw [Nat.div_lt_iff_lt_mul (by decide), ← Nat.pow_succ]; exact h
    by_cases h16 : n < 16
    · rw [fmtX_small _ n h16]
      show _ = blankZeros (hex (w + 1) (n / 16) ++ [hexDigit (n % 16)])
      rw [Nat.div_eq_of_lt h16, Nat.mod_eq_of_lt h16, hex_zero, blankZeros_zeros]
    · rw [fmtX_step _ n (by omega), ih _ hq]
      show _ = blankZeros (hex (w + 1) (n / 16) ++ [hexDigit (n % 16)])
      rw [blankZeros_append _ _ (hex_not_zero _ _ hq (by omega))]

/-- A group comes out with all its digits exactly if the leading one is not zero. -/
theorem fmtX_canonical (w n : Nat) (h : n < 16 ^ (w + 1)) :
    fmtX (w + 1) n = hex (w + 1) n ↔ w = 0 ∨ 16 ^ w ≤ n := by
  induction w generalizing n with
  | zero =>
    have h16 : n < 16 := by simpa using h
    rw [fmtX_small 0 n h16]
    simp [hex, Nat.mod_eq_of_lt h16]
  | succ w ih =>
    have hq : n / 16 < 16 ^ (w + 1) := by
      rw [Nat.div_lt_iff_lt_mul (by decide), ← Nat.pow_succ]; exact h
    by_cases h16 : n < 16
    · rw [fmtX_small _ n h16]
      constructor
      · intro he
        change _ = hex (w + 1) (n / 16) ++ [hexDigit (n % 16)] at he
        rw [Nat.div_eq_of_lt h16, hex_zero] at he
        have he := (List.append_inj he (by simp)).1
        rw [List.replicate_succ, List.replicate_succ] at he
        have := (List.cons.inj he).1
        exact absurd this (by decide)
      · rintro (h0 | h0)
        · omega
        · have : 16 ≤ 16 ^ (w + 1) := by
            rw [Nat.pow_succ]; exact Nat.le_mul_of_pos_left _ (Nat.pow_pos (by decide))
          omega
    · rw [fmtX_step _ n (by omega)]
      show fmtX (w + 1) (n / 16) ++ [hexDigit (n % 16)] = hex (w + 1) (n / 16) ++ [hexDigit (n % 16)] ↔ _
      rw [List.append_cancel_right_eq, ih _ hq, Nat.le_div_iff_mul_le (by decide), ← Nat.pow_succ]
      constructor
      · rintro (h0 | h0)
        · subst h0; right; simpa using (by omega : 16 ≤ n)
        · exact .inr h0
      · rintro (h0 | h0)
        · omega
        · exact .inr h0

/-- The number that a group of characters stands for; everything but a digit counts as zero. -/
def Spec.unhex (l : List Char) : Nat :=
  l.foldl (fun acc c => acc * 16 + (if '0' ≤ c ∧ c ≤ '9' then c.toNat - 48 else
    if 'A' ≤ c ∧ c ≤ 'F' then c.toNat - 55 else 0)) 0

theorem unhex_digit : ∀ a < 16, (if '0' ≤ hexDigit a ∧ hexDigit a ≤ '9' then (hexDigit a).toNat - 48 else
    if 'A' ≤ hexDigit a ∧ hexDigit a ≤ 'F' then (hexDigit a).toNat - 55 else 0) = a := by decide

theorem unhex_snoc (l : List Char) (a : Nat) (h : a < 16) :
    unhex (l ++ [hexDigit a]) = unhex l * 16 + a := by
  unfold unhex
  rw [List.foldl_append, List.foldl_cons, List.foldl_nil, unhex_digit a h]

theorem unhex_blanks (w : Nat) : unhex (List.replicate w ' ') = 0 := by
  induction w with
  | zero => rfl
  | succ w ih =>
    rw [List.replicate_succ']
    unfold unhex at ih ⊢
    rw [List.foldl_append, ih]; rfl

theorem unhex_fmtX (w n : Nat) (h : n < 16 ^ (w + 1)) : unhex (fmtX (w + 1) n) = n := by
  induction w generalizing n with
  | zero =>
    have h16 : n < 16 := by simpa using h
    rw [fmtX_small 0 n h16, unhex_snoc _ _ h16, unhex_blanks]; omega
  | succ w ih =>
    by_cases h16 : n < 16
    · rw [fmtX_small _ n h16, unhex_snoc _ _ h16, unhex_blanks]; omega
    · rw [fmtX_step _ n (by omega), unhex_snoc _ _ (Nat.mod_lt _ (by decide)), ih]
      · omega
      · rw [Nat.div_lt_iff_lt_mul (by decide), ← Nat.pow_succ]; exact h

theorem byte_lt (b : UInt8) : b.toNat < 16 ^ (1 + 1) := UInt8.toNat_lt b

theorem bytes_length (l : Bytes) : (l.flatMap (fun b => fmtX 2 b.toNat)).length = 2 * l.length := by
  induction l with
  | nil => rfl
  | cons b l ih =>
    rw [List.flatMap_cons, List.length_append, ih, fmtX_length 1 b.toNat (byte_lt b), List.length_cons]
    omega

theorem hexBytes_length (l : Bytes) : (l.flatMap (fun b => hex 2 b.toNat)).length = 2 * l.length := by
  induction l with
  | nil => rfl
  | cons b l ih =>
    rw [List.flatMap_cons, List.length_append, ih, hex_length, List.length_cons]
    omega

theorem bytes_inj (l m : Bytes) (hl : l.length = m.length)
    (h : l.flatMap (fun b => fmtX 2 b.toNat) = m.flatMap (fun b => fmtX 2 b.toNat)) : l = m := by
  induction l generalizing m with
  | nil => cases m with
    | nil => rfl
    | cons => simp at hl
  | cons a l ih =>
    cases m with
    | nil => simp at hl
    | cons b m =>
      rw [List.flatMap_cons, List.flatMap_cons] at h
      obtain ⟨h1, h2⟩ := List.append_inj h
        (by rw [fmtX_length 1 _ (byte_lt a), fmtX_length 1 _ (byte_lt b)])
      have e : a.toNat = b.toNat := by
        rw [← unhex_fmtX 1 _ (byte_lt a), ← unhex_fmtX 1 _ (byte_lt b), h1]
      rw [UInt8.toNat_inj.1 e, ih m (by simpa using hl) h2]

/-- C45, the length: always 36 characters. -/
theorem C45_length_partial (g : Guid) (h : g.InRange) : g.display.length = 36 := by
  unfold Guid.display
  simp only [List.length_append, bytes_length, List.length_take, List.length_drop, h.data4,
    List.length_singleton]
  rw [fmtX_length 7 _ (by have := h.data1; omega), fmtX_length 3 _ (by have := h.data2; omega),
    fmtX_length 3 _ (by have := h.data3; omega)]
  decide

/-- C45, the contents: the groups are those of the canonical form, with leading zeros replaced by
blanks. Missing: the zeros themselves (see `C45_negation`). -/
theorem C45_groups_partial (g : Guid) (h : g.InRange) :
    g.display =
      blankZeros (hex 8 g.data1) ++ ['-'] ++ blankZeros (hex 4 g.data2) ++ ['-'] ++
        blankZeros (hex 4 g.data3) ++ ['-'] ++
        (g.data4.take 2).flatMap (fun b => blankZeros (hex 2 b.toNat)) ++ ['-'] ++
        (g.data4.drop 2).flatMap (fun b => blankZeros (hex 2 b.toNat)) := by
  unfold Guid.display
  rw [fmtX_eq 7 _ (by have := h.data1; omega), fmtX_eq 3 _ (by have := h.data2; omega),
    fmtX_eq 3 _ (by have := h.data3; omega)]
  have e : (fun b : UInt8 => fmtX 2 b.toNat) = fun b => blankZeros (hex 2 b.toNat) :=
    funext fun b => fmtX_eq 1 _ (byte_lt b)
  rw [e]

theorem bytes_canonical (l : Bytes) :
    l.flatMap (fun b => fmtX 2 b.toNat) = l.flatMap (fun b => hex 2 b.toNat) ↔
      ∀ b ∈ l, 16 ≤ b.toNat := by
  induction l with
  | nil => simp
  | cons a l ih =>
    rw [List.flatMap_cons, List.flatMap_cons]
    have key := fmtX_canonical 1 _ (byte_lt a)
    constructor
    · intro he
      obtain ⟨h1, h2⟩ := List.append_inj he (by rw [fmtX_length 1 _ (byte_lt a), hex_length])
      intro b hb
      rcases List.mem_cons.1 hb with rfl | hb
      · rcases key.1 h1 with h0 | h0
        · omega
        · simpa using h0
      · exact ih.1 h2 b hb
    · intro hb
      rw [key.2 (.inr (by simpa using hb a (by simp))), ih.2 fun b h => hb b (by simp [h])]

/-- C45, when the form is canonical: exactly if no group starts with a zero; in the last two groups
this is required of every byte. -/
theorem C45_canonical_iff_partial (g : Guid) (h : g.InRange) :
    g.display = canonical g ↔
      16 ^ 7 ≤ g.data1 ∧ 16 ^ 3 ≤ g.data2 ∧ 16 ^ 3 ≤ g.data3 ∧ ∀ b ∈ g.data4, 16 ≤ b.toNat := by
  have r1 : g.data1 < 16 ^ (7 + 1) := by have := h.data1; omega
  have r2 : g.data2 < 16 ^ (3 + 1) := by have := h.data2; omega
  have r3 : g.data3 < 16 ^ (3 + 1) := by have := h.data3; omega
  have k1 := fmtX_canonical 7 _ r1
  have k2 := fmtX_canonical 3 _ r2
  have k3 := fmtX_canonical 3 _ r3
  have k4 := bytes_canonical (g.data4.take 2)
  have k5 := bytes_canonical (g.data4.drop 2)
  have hsplit : (∀ b ∈ g.data4, 16 ≤ b.toNat) ↔
      (∀ b ∈ g.data4.take 2, 16 ≤ b.toNat) ∧ ∀ b ∈ g.data4.drop 2, 16 ≤ b.toNat := by
    constructor
    · exact fun hb => ⟨fun b h' => hb b (List.mem_of_mem_take h'), fun b h' => hb b (List.mem_of_mem_drop h')⟩
    · rintro ⟨h1, h2⟩ b hb
      rw [← List.take_append_drop 2 g.data4] at hb
      rcases List.mem_append.1 hb with hb | hb
      · exact h1 b hb
      · exact h2 b hb
  have hl4 : ((g.data4.take 2).flatMap (fun b => hex 2 b.toNat)).length =
      ((g.data4.take 2).flatMap (fun b => fmtX 2 b.toNat)).length := by
    rw [bytes_length, hexBytes_length]
  rw [hsplit, ← k4, ← k5]
  unfold Guid.display canonical
  constructor
  · intro he
    obtain ⟨he, e5⟩ := List.append_inj' he (by
      rw [bytes_length, hexBytes_length])
    obtain ⟨he, -⟩ := List.append_inj' he rfl
    obtain ⟨he, e4⟩ := List.append_inj' he hl4.symm
    obtain ⟨he, -⟩ := List.append_inj' he rfl
    obtain ⟨he, e3⟩ := List.append_inj' he (by rw [fmtX_length 3 _ r3, hex_length])
    obtain ⟨he, -⟩ := List.append_inj' he rfl
    obtain ⟨he, e2⟩ := List.append_inj' he (by rw [fmtX_length 3 _ r2, hex_length])
    obtain ⟨e1, -⟩ := List.append_inj' he rfl
    have := k1.1 e1
    have := k2.1 e2
    have := k3.1 e3
    exact ⟨by omega, by omega, by omega, e4, e5⟩
  · rintro ⟨e1, e2, e3, e4, e5⟩
    rw [k1.2 (.inr e1), k2.2 (.inr e2), k3.2 (.inr e3), e4, e5]

/-- C45: the form determines the GUID. -/
theorem C45_injective (g k : Guid) (hg : g.InRange) (hk : k.InRange) (h : g.display = k.display) :
    g = k := by
  have r1 : g.data1 < 16 ^ (7 + 1) := by have := hg.data1; omega
  have r2 : g.data2 < 16 ^ (3 + 1) := by have := hg.data2; omega
  have r3 : g.data3 < 16 ^ (3 + 1) := by have := hg.data3; omega
  have s1 : k.data1 < 16 ^ (7 + 1) := by have := hk.data1; omega
  have s2 : k.data2 < 16 ^ (3 + 1) := by have := hk.data2; omega
  have s3 : k.data3 < 16 ^ (3 + 1) := by have := hk.data3; omega
  unfold Guid.display at h
  obtain ⟨h, e5⟩ := List.append_inj' h (by
    rw [bytes_length, bytes_length, List.length_drop, List.length_drop, hg.data4, hk.data4])
  obtain ⟨h, -⟩ := List.append_inj' h rfl
  obtain ⟨h, e4⟩ := List.append_inj' h (by
    rw [bytes_length, bytes_length, List.length_take, List.length_take, hg.data4, hk.data4])
  obtain ⟨h, -⟩ := List.append_inj' h rfl
  obtain ⟨h, e3⟩ := List.append_inj' h (by rw [fmtX_length 3 _ r3, fmtX_length 3 _ s3])
  obtain ⟨h, -⟩ := List.append_inj' h rfl
  obtain ⟨h, e2⟩ := List.append_inj' h (by rw [fmtX_length 3 _ r2, fmtX_length 3 _ s2])
  obtain ⟨e1, -⟩ := List.append_inj' h rfl
  have f1 : g.data1 = k.data1 := by rw [← unhex_fmtX 7 _ r1, ← unhex_fmtX 7 _ s1, e1]
  have f2 : g.data2 = k.data2 := by rw [← unhex_fmtX 3 _ r2, ← unhex_fmtX 3 _ s2, e2]
  have f3 : g.data3 = k.data3 := by rw [← unhex_fmtX 3 _ r3, ← unhex_fmtX 3 _ s3, e3]
  have f4 := bytes_inj _ _ (by rw [List.length_take, List.length_take, hg.data4, hk.data4]) e4
  have f5 := bytes_inj _ _ (by rw [List.length_drop, List.length_drop, hg.data4, hk.data4]) e5
  have f6 : g.data4 = k.data4 := by
    rw [← List.take_append_drop 2 g.data4, f4, f5, List.take_append_drop]
  cases g; cases k
  simp only at f1 f2 f3 f6
  rw [f1, f2, f3, f6]

/-- The GUID of the crate's own test satisfies the hypotheses and has the canonical form. -/
def exGuid : Guid :=
  { data1 := 0x67c8770b, data2 := 0x44f1, data3 := 0x410a
    data4 := [0xab, 0x9a, 0xf9, 0xb5, 0x44, 0x6f, 0x13, 0xee] }

example : exGuid.InRange := ⟨by decide, by decide, by decide, rfl⟩

example : canonical exGuid = "67C8770B-44F1-410A-AB9A-F9B5446F13EE".toList ∧
    exGuid.display = canonical exGuid :=
  ⟨by decide, (C45_canonical_iff_partial exGuid ⟨by decide, by decide, by decide, rfl⟩).2 (by decide)⟩

/-- C45 does not hold: the third group of this GUID is printed as blanks and a zero, and a byte below 16
leaves a blank in the middle of the last group. -/
theorem C45_negation : ∃ g : Guid, g.InRange ∧
    canonical g = "67C8770B-44F1-0000-AB9A-F9050A6F13EE".toList ∧
    g.display = "67C8770B-44F1-   0-AB9A-F9 5 A6F13EE".toList := by
  refine ⟨⟨0x67c8770b, 0x44f1, 0, [0xab, 0x9a, 0xf9, 0x05, 0x0a, 0x6f, 0x13, 0xee]⟩,
    ⟨by decide, by decide, by decide, rfl⟩, by decide, ?_⟩
  rw [C45_groups_partial _ ⟨by decide, by decide, by decide, rfl⟩]
  decide

example := C45_length_partial exGuid ⟨by decide, by decide, by decide, rfl⟩
/-- Two GUIDs that differ in the last byte are printed differently. -/
example : exGuid.display ≠ Guid.display ⟨0x67c8770b, 0x44f1, 0x410a, [0xab, 0x9a, 0xf9, 0xb5, 0x44, 0x6f, 0x13, 0xef]⟩ :=
  fun h => absurd (C45_injective _ _ ⟨by decide, by decide, by decide, rfl⟩ ⟨by decide, by decide, by decide, rfl⟩ h) (by decide)

end NT
