import Verif.Model.Attribute
import Verif.Spec.Attribute
import Verif.Lemmas.Bytes

namespace NT

open Spec

theorem idxByte_ok {d : Bytes} {i : Nat} (h : i < d.length) : idxByte d i = .ok (field d i 1) := by
  unfold idxByte field
  rw [List.getElem?_eq_getElem h]
  have : (d.drop i).take 1 = [d[i]] := by
    rw [List.drop_eq_getElem_cons h]; rfl
  rw [this]; simp [leNat]

theorem AttrType.ofCode_eq_some {n : Nat} {t : AttrType} : AttrType.ofCode n = some t ↔ n = t.code := by
  constructor
  · intro h
    have := List.find?_some h
    simpa using (beq_iff_eq.1 this).symm
  · rintro rfl; cases t <;> decide

theorem AttrType.code_inj {s t : AttrType} (h : s.code = t.code) : s = t := by
  have h1 : AttrType.ofCode s.code = some s := ofCode_eq_some.2 rfl
  have h2 : AttrType.ofCode s.code = some t := ofCode_eq_some.2 h
  rw [h1] at h2; exact Option.some.inj h2

/-- The 16 header bytes of the attribute lie in the record. -/
def Attr.HeaderIn (a : Attr) : Prop := a.offset + 16 ≤ a.recordData.length

section
variable {a : Attr} (h : a.HeaderIn)
include h

theorem Attr.attributeLength_eq : a.attributeLength = .ok (field a.recordData (a.offset + 4) 4) :=
  readLE_ok (by unfold HeaderIn at h; omega)
theorem Attr.inst_eq : a.inst = .ok (field a.recordData (a.offset + 14) 2) :=
  readLE_ok (by unfold HeaderIn at h; omega)
theorem Attr.nameOffset_eq : a.nameOffset = .ok (field a.recordData (a.offset + 10) 2) :=
  readLE_ok (by unfold HeaderIn at h; omega)
theorem Attr.nameLength_eq : a.nameLength = .ok (field a.recordData (a.offset + 9) 1 * 2) := by
  unfold Attr.nameLength HeaderIn at *
  rw [idxByte_ok (by omega)]; rfl
theorem Attr.isResident_eq : a.isResident = .ok (field a.recordData (a.offset + 8) 1 == 0) := by
  unfold Attr.isResident HeaderIn at *
  rw [idxByte_ok (by omega)]; rfl
theorem Attr.ty_eq : a.ty = Res.ofOption
    (.unsupportedAttributeType a.position (field a.recordData a.offset 4))
    (AttrType.ofCode (field a.recordData a.offset 4)) := by
  unfold Attr.ty HeaderIn at *
  rw [readLE_ok (by omega)]; rfl
theorem Attr.flags_eq : a.flags = .ok (field a.recordData (a.offset + 12) 2 % 2 +
    0x4000 * (field a.recordData (a.offset + 12) 2 / 0x4000)) := by
  unfold Attr.flags HeaderIn at *
  rw [readLE_ok (by omega)]; rfl

end

/-- `NtfsAttribute::new`, in terms of the record bytes. -/
theorem Attr.new_eq (f : NFile) (off : Nat) (l : Option AttrList) :
    Attr.new f off l =
      if f.recordData.length - off < 16 then
        .err (.invalidAttributeLength (Pos.add f.position off) 16 (f.recordData.length - off))
      else if field f.recordData (off + 4) 4 < 16 then
        .err (.invalidAttributeLength (Pos.add f.position off) 16 (field f.recordData (off + 4) 4))
      else if f.recordData.length - off < field f.recordData (off + 4) 4 then
        .err (.invalidAttributeLength (Pos.add f.position off) (field f.recordData (off + 4) 4)
          (f.recordData.length - off))
      else .ok ⟨f, off, l⟩ := by
  unfold Attr.new Attr.validateAttributeLength
  simp only
  by_cases h : f.recordData.length - off < 16
  · simp only [h, if_true, Attr.position]; rfl
  · simp only [h, if_false]
    rw [Attr.attributeLength_eq (by unfold HeaderIn; simp only [Attr.recordData]; omega)]
    simp only [Res.bind_ok]
    split
    · rfl
    · by_cases h3 : f.recordData.length - off < field f.recordData (off + 4) 4
      · rw [if_pos h3, if_pos h3]; rfl
      · rw [if_neg h3, if_neg h3]; rfl

/-- Everything an attribute obtained from `NtfsAttribute::new` satisfies. -/
structure Attr.Valid (a : Attr) : Prop where
  header : a.HeaderIn
  min : 16 ≤ field a.recordData (a.offset + 4) 4
  inside : a.offset + field a.recordData (a.offset + 4) 4 ≤ a.recordData.length

theorem Attr.new_ok_iff {f : NFile} {off : Nat} {l : Option AttrList} {a : Attr} :
    Attr.new f off l = .ok a ↔ a = ⟨f, off, l⟩ ∧ a.Valid := by
  rw [Attr.new_eq]
  constructor
  · intro h
    split at h
    · cases h
    split at h
    · cases h
    split at h
    · cases h
    injection h with h
    subst h
    exact ⟨rfl, ⟨by unfold HeaderIn; simp only [Attr.recordData]; omega, by simp only [Attr.recordData]; omega, by simp only [Attr.recordData]; omega⟩⟩
  · rintro ⟨rfl, h1, h2, h3⟩
    unfold HeaderIn at h1
    simp only [Attr.recordData] at h1 h2 h3
    rw [if_neg (by omega), if_neg (by omega), if_neg (by omega)]

theorem Attr.new_safe (f : NFile) (off : Nat) (l : Option AttrList) : (Attr.new f off l).Safe := by
  rw [Attr.new_eq]
  repeat' split
  all_goals trivial

/-- `NtfsAttribute::name`, in terms of the record bytes. -/
theorem Attr.name_eq {a : Attr} (h : a.HeaderIn) (start count len : Nat)
    (hs : field a.recordData (a.offset + 10) 2 = start)
    (hc : field a.recordData (a.offset + 9) 1 = count)
    (hl : field a.recordData (a.offset + 4) 4 = len)
    (hin : a.offset + len ≤ a.recordData.length) :
    a.name =
      if start = 0 ∨ count = 0 then .ok []
      else if len ≤ start then .err (.invalidAttributeNameOffset a.position start len)
      else if len < start + count * 2 then
        .err (.invalidAttributeNameLength a.position (start + count * 2) len)
      else .ok ((a.recordData.drop (a.offset + start)).take (count * 2)) := by
  unfold Attr.name Attr.validateNameSizes
  rw [Attr.nameOffset_eq h, Attr.nameLength_eq h, Attr.attributeLength_eq h, hs, hc, hl]
  simp only [Res.bind_ok]
  by_cases h0 : start = 0 ∨ count = 0
  · rw [if_pos h0, if_pos (by omega)]
  · rw [if_neg h0, if_neg (by omega)]
    by_cases h1 : len ≤ start
    · rw [if_pos h1, if_pos h1]; rfl
    · rw [if_neg h1, if_neg h1]
      by_cases h2 : len < start + count * 2
      · rw [if_pos h2, if_pos h2]; rfl
      · rw [if_neg h2, if_neg h2]
        simp only [Res.bind_ok]
        rw [idxRange_ok (by omega) (by omega)]
        congr 2; omega

theorem leBytes_two (x : Nat) :
    leBytes 2 x = [UInt8.ofNat (x % 256), UInt8.ofNat (x / 256 % 256)] := rfl

theorem u16s_flatMap (s : List Nat) (h : ∀ x ∈ s, x < U16) : u16s (s.flatMap (leBytes 2)) = s := by
  induction s with
  | nil => rfl
  | cons x xs ih =>
    have hx := h x (by simp)
    rw [List.flatMap_cons, leBytes_two, List.cons_append, List.cons_append, List.nil_append, u16s,
      ih (fun y hy => h y (by simp [hy]))]
    congr 1
    simp only [UInt8.toNat_ofNat', Nat.reducePow]
    omega

theorem flatMap_u16s (b : Bytes) : ∀ n, b.length = n * 2 → (u16s b).flatMap (leBytes 2) = b := by
  intro n
  induction n generalizing b with
  | zero => intro h; rw [List.length_eq_zero_iff.1 (by omega : b.length = 0)]; rfl
  | succ n ih =>
    intro h
    match b, h with
    | [x], h => simp at h; omega
    | x :: y :: rest, h =>
      simp only [List.length_cons] at h
      rw [u16s, List.flatMap_cons, ih rest (by omega), leBytes_two]
      have hx := x.toNat_lt
      have hy := y.toNat_lt
      have e1 : (x.toNat + 256 * y.toNat) % 256 = x.toNat := by omega
      have e2 : (x.toNat + 256 * y.toNat) / 256 % 256 = y.toNat := by omega
      rw [e1, e2]; simp

theorem u16s_lt (b : Bytes) : ∀ x ∈ u16s b, x < U16 := by
  fun_induction u16s b with
  | case1 a b rest ih =>
    intro x hx
    rcases List.mem_cons.1 hx with rfl | hx
    · have := a.toNat_lt; have := b.toNat_lt; omega
    · exact ih x hx
  | case2 => intro x hx; cases hx

/-- The result of `name()` for an attribute whose name fields are sound. -/
theorem Attr.name_of_nameIs {a : Attr} (h : a.HeaderIn)
    (hin : a.offset + field a.recordData (a.offset + 4) 4 ≤ a.recordData.length)
    {s : List Nat} (hs : NameIs a.recordData a.offset s) :
    ∃ b, a.name = .ok b ∧ u16s b = s := by
  rw [Attr.name_eq h _ _ _ rfl rfl rfl hin]
  unfold NameIs at hs
  simp only at hs
  obtain ⟨hu, hs⟩ := hs
  split at hs
  · rename_i h0
    rw [if_pos h0]
    exact ⟨[], rfl, by rw [hs]; rfl⟩
  · rename_i h0
    rw [if_neg h0, if_neg (by omega), if_neg (by omega)]
    refine ⟨_, rfl, ?_⟩
    rw [Nat.mul_comm, hs.2, u16s_flatMap s hu]

theorem Attr.nameIs_of_name {a : Attr} (h : a.HeaderIn)
    (hin : a.offset + field a.recordData (a.offset + 4) 4 ≤ a.recordData.length)
    {b : Bytes} (hb : a.name = .ok b) : NameIs a.recordData a.offset (u16s b) := by
  rw [Attr.name_eq h _ _ _ rfl rfl rfl hin] at hb
  unfold NameIs
  simp only
  refine ⟨u16s_lt b, ?_⟩
  split at hb
  · rename_i h0
    injection hb with hb; subst hb
    rw [if_pos h0]; rfl
  · rename_i h0
    rw [if_neg h0]
    split at hb
    · cases hb
    split at hb
    · cases hb
    injection hb with hb
    refine ⟨by omega, ?_⟩
    rw [← hb]
    rw [flatMap_u16s _ (field a.recordData (a.offset + 9) 1), Nat.mul_comm]
    simp; omega

theorem Attr.name_safe {a : Attr} (h : a.Valid) : a.name.Safe := by
  rw [Attr.name_eq h.header _ _ _ rfl rfl rfl h.inside]
  repeat' split
  all_goals trivial

theorem Attr.ty_safe {a : Attr} (h : a.HeaderIn) : a.ty.Safe := by
  rw [Attr.ty_eq h]
  cases AttrType.ofCode _ <;> trivial

theorem Attr.ty_ok_iff {a : Attr} (h : a.HeaderIn) {t : AttrType} :
    a.ty = .ok t ↔ field a.recordData a.offset 4 = t.code := by
  rw [Attr.ty_eq h, ← AttrType.ofCode_eq_some]
  cases AttrType.ofCode _ <;> simp [Res.ofOption]

end NT
