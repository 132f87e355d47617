import Verif.Lemmas.Attribute
import Verif.Props.C12_Fixup

/-! C18 (raw attribute iteration tiles the record) and C19 (used part of the record). -/

namespace NT

open Spec

/-- What the caller sees in `n` calls of `next`. -/
def AttrsRaw.calls : Nat → AttrsRaw → List (Option (Res Attr))
  | 0, _ => []
  | n + 1, it => it.next.1 :: AttrsRaw.calls n it.next.2

/-- The error for the bytes at `off`, which are no well-sized attribute. -/
def Spec.lengthError (p : Pos) (d : Bytes) (off : Nat) : Err :=
  if d.length - off < 16 then .invalidAttributeLength p 16 (d.length - off)
  else if field d (off + 4) 4 < 16 then .invalidAttributeLength p 16 (field d (off + 4) 4)
  else .invalidAttributeLength p (field d (off + 4) 4) (d.length - off)

theorem AttrsRaw.next_cases (it : AttrsRaw) :
    (EndsAt it.file.recordData it.start ∧ it.next = (none, it)) ∨
    (∃ len, AttrAt it.file.recordData it.start len ∧
      it.next = (some (.ok ⟨it.file, it.start, none⟩), { it with start := it.start + len })) ∨
    (¬ EndsAt it.file.recordData it.start ∧ (∀ len, ¬ AttrAt it.file.recordData it.start len) ∧
      it.next = (some (.err (lengthError (Pos.add it.file.position it.start) it.file.recordData
        it.start)), it)) := by
  unfold AttrsRaw.next
  cases hg : getRange it.file.recordData it.start (it.start + 4) with
  | none =>
    left
    refine ⟨?_, rfl⟩
    intro h
    rw [getRange_eq_some (by omega) h] at hg
    cases hg
  | some b =>
    obtain ⟨_, h4, hb⟩ := getRange_isSome_iff.1 hg
    have e4 : it.start + 4 - it.start = 4 := by omega
    rw [e4] at hb
    have hf : leNat b = field it.file.recordData it.start 4 := by rw [hb]; rfl
    simp only [hf, AttrType.code]
    by_cases hend : field it.file.recordData it.start 4 = 4294967295
    · left
      rw [if_pos hend]
      exact ⟨fun _ => hend, rfl⟩
    · right
      rw [if_neg hend, Attr.new_eq]
      have hne : ¬ EndsAt it.file.recordData it.start := fun h => hend (h h4)
      unfold lengthError
      by_cases h1 : it.file.recordData.length - it.start < 16
      · right
        rw [if_pos h1, if_pos h1]
        exact ⟨hne, fun len h => by have := h.header; have := h.inside; omega, rfl⟩
      · rw [if_neg h1, if_neg h1]
        by_cases h2 : field it.file.recordData (it.start + 4) 4 < 16
        · right
          rw [if_pos h2, if_pos h2]
          exact ⟨hne, fun len h => by have := h.header; have := h.length; omega, rfl⟩
        · rw [if_neg h2, if_neg h2]
          by_cases h3 : it.file.recordData.length - it.start < field it.file.recordData (it.start + 4) 4
          · right
            rw [if_pos h3]
            exact ⟨hne, fun len h => by have := h.inside; have := h.length; omega, rfl⟩
          · left
            rw [if_neg h3]
            refine ⟨_, ⟨hend, rfl, by omega, by omega⟩, ?_⟩
            simp only
            rw [Attr.attributeLength_eq (by unfold Attr.HeaderIn; simp only [Attr.recordData]; omega)]

theorem Spec.Chain.bounds {d : Bytes} {off : Nat} {offs : List Nat} {fin : Nat} (h : Chain d off offs fin) :
    off + 16 * offs.length ≤ fin ∧ (offs ≠ [] → fin ≤ d.length) ∧
    (∀ x ∈ offs, off ≤ x ∧ AttrAt d x (field d (x + 4) 4) ∧ x + field d (x + 4) 4 ≤ fin) := by
  induction h with
  | nil off => simp
  | @cons off len fin offs hx t ih =>
    obtain ⟨h1, h2, h3⟩ := ih
    have hh := hx.header
    have hi := hx.inside
    have hl := hx.length
    refine ⟨by simp only [List.length_cons]; omega, ?_, ?_⟩
    · intro _
      cases offs with
      | nil => cases t; omega
      | cons y ys => exact h2 (by simp)
    · intro x hxm
      rcases List.mem_cons.1 hxm with rfl | hxm
      · refine ⟨Nat.le_refl _, by rw [hl]; exact hx, by omega⟩
      · obtain ⟨a, b, c⟩ := h3 x hxm
        exact ⟨by omega, b, c⟩

/-- Attributes of a chain are disjoint and in increasing order. -/
theorem Spec.Chain.disjoint {d : Bytes} {off : Nat} {offs : List Nat} {fin : Nat}
    (h : Chain d off offs fin) :
    offs.Pairwise (fun a b => a + field d (a + 4) 4 ≤ b) := by
  induction h with
  | nil off => exact List.Pairwise.nil
  | cons hx t ih =>
    refine List.Pairwise.cons ?_ ih
    intro b hb
    have := (t.bounds.2.2 b hb).1
    rw [hx.length]; exact this

theorem AttrsRaw.calls_stuck (it : AttrsRaw) (x : Option (Res Attr)) (h : it.next = (x, it)) (n : Nat) :
    it.calls n = List.replicate n x := by
  induction n with
  | zero => rfl
  | succ n ih => simp only [AttrsRaw.calls, h, ih, List.replicate_succ]

theorem AttrsRaw.calls_spec (f : NFile) (stop : Nat) : ∀ (m off : Nat),
    f.recordData.length - off ≤ m →
    ∃ offs fin last, Chain f.recordData off offs fin ∧
      ((EndsAt f.recordData fin ∧ last = none) ∨
       (¬ EndsAt f.recordData fin ∧ (∀ len, ¬ AttrAt f.recordData fin len) ∧
        last = some (.err (lengthError (Pos.add f.position fin) f.recordData fin)))) ∧
      ∀ n, (AttrsRaw.mk f off stop).calls n =
        ((offs.map fun x => some (Res.ok (Attr.mk f x none))) ++ List.replicate n last).take n := by
  intro m
  induction m with
  | zero =>
    intro off hm
    rcases AttrsRaw.next_cases ⟨f, off, stop⟩ with ⟨h1, h2⟩ | ⟨len, h1, _⟩ | ⟨h1, h2, h3⟩
    · refine ⟨[], off, none, .nil off, Or.inl ⟨h1, rfl⟩, ?_⟩
      intro n
      rw [AttrsRaw.calls_stuck _ _ h2]
      simp
    · have := h1.header; have := h1.inside; simp only at *; omega
    · exfalso; apply h1; intro h; simp only at *; omega
  | succ m ih =>
    intro off hm
    rcases AttrsRaw.next_cases ⟨f, off, stop⟩ with ⟨h1, h2⟩ | ⟨len, h1, h2⟩ | ⟨h1, h2, h3⟩
    · refine ⟨[], off, none, .nil off, Or.inl ⟨h1, rfl⟩, ?_⟩
      intro n
      rw [AttrsRaw.calls_stuck _ _ h2]
      simp
    · obtain ⟨offs, fin, last, hc, hl, hcalls⟩ := ih (off + len) (by have := h1.header; omega)
      refine ⟨off :: offs, fin, last, .cons h1 hc, hl, ?_⟩
      intro n
      cases n with
      | zero => rfl
      | succ n =>
        simp only [AttrsRaw.calls, h2, List.map_cons, List.cons_append, List.take_succ_cons,
          hcalls n]
        congr 1
        rw [List.take_append, List.take_append, List.take_replicate, List.take_replicate]
        congr 2
        omega
    · refine ⟨[], off, _, .nil off, Or.inr ⟨h1, h2, rfl⟩, ?_⟩
      intro n
      rw [AttrsRaw.calls_stuck _ _ h3]
      simp

theorem NFile.attributesRaw_eq (f : NFile) (h : 32 ≤ f.recordData.length) :
    f.attributesRaw = .ok ⟨f, field f.recordData 20 2, field f.recordData 24 4⟩ := by
  unfold NFile.attributesRaw NFile.firstAttributeOffset NFile.dataSize
  rw [readLE_ok (by omega), readLE_ok (by omega)]
  rfl

/-- C18: the raw iterator yields the attributes of the chain that starts at the first-attribute
offset, in order, each exactly once; these are consecutive and lie inside the record
(`Spec.Chain`); there are at most `length / 16` of them. Every further call returns `None` if the
chain ends properly, and otherwise the same length error again and again. No call panics. -/
theorem C18_tiles (f : NFile) (h : 32 ≤ f.recordData.length) :
    ∃ it offs fin last, f.attributesRaw = .ok it ∧
      Chain f.recordData (field f.recordData 20 2) offs fin ∧ 16 * offs.length ≤ f.recordData.length ∧
      ((EndsAt f.recordData fin ∧ last = none) ∨
       (¬ EndsAt f.recordData fin ∧ (∀ len, ¬ AttrAt f.recordData fin len) ∧
        last = some (.err (lengthError (Pos.add f.position fin) f.recordData fin)))) ∧
      ∀ n, it.calls n =
        ((offs.map fun x => some (Res.ok (Attr.mk f x none))) ++ List.replicate n last).take n := by
  obtain ⟨offs, fin, last, hc, hl, hn⟩ :=
    AttrsRaw.calls_spec f (field f.recordData 24 4) _ (field f.recordData 20 2) (Nat.le_refl _)
  refine ⟨_, offs, fin, last, NFile.attributesRaw_eq f h, hc, ?_, hl, hn⟩
  have := hc.bounds
  cases offs with
  | nil => simp
  | cons x xs => have := this.2.1 (by simp); omega

/-- C18: the attributes that are yielded do not overlap, and each lies inside the record. -/
theorem C18_disjoint (d : Bytes) (off : Nat) (offs : List Nat) (fin : Nat) (h : Chain d off offs fin) :
    offs.Pairwise (fun a b => a + field d (a + 4) 4 ≤ b) ∧
    ∀ x ∈ offs, off ≤ x ∧ 16 ≤ field d (x + 4) 4 ∧ x + field d (x + 4) 4 ≤ d.length :=
  ⟨h.disjoint, fun x hx => by
    obtain ⟨h1, h2, _⟩ := h.bounds.2.2 x hx
    exact ⟨h1, h2.header, h2.inside⟩⟩

/-- What `NtfsFile::new` accepts: the bytes read from the device, fixed up, with consistent sizes. -/
theorem NFile.ofBytes_ok_iff (ntfs : Ntfs) (data : Bytes) (position number : Nat) (f : NFile) :
    NFile.ofBytes ntfs data position number = .ok f ↔
      data.take 4 = [0x46, 0x49, 0x4C, 0x45] ∧
      ∃ r, (Record.mk data (some position)).fixup = .ok r ∧ f = ⟨ntfs, r, number⟩ ∧
        32 ≤ r.data.length ∧ field r.data 28 4 ≤ r.data.length ∧ field r.data 24 4 ≤ field r.data 28 4 := by
  unfold NFile.ofBytes NFile.validateSignature Record.signature
  simp only
  by_cases h4 : 4 ≤ data.length
  · rw [idxRange_ok (by omega) h4]
    simp only [Res.bind_ok, List.drop_zero, Nat.sub_zero]
    by_cases hs : data.take 4 = [0x46, 0x49, 0x4C, 0x45]
    · simp only [hs, if_true, Res.bind_ok, true_and]
      cases hfix : (Record.mk data (some position)).fixup with
      | ok r =>
        simp only [Res.bind_ok]
        have hval : ∀ g : NFile, g = ⟨ntfs, r, number⟩ → (NFile.validateSizes g = .ok () ↔
            32 ≤ r.data.length ∧ field r.data 28 4 ≤ r.data.length ∧
              field r.data 24 4 ≤ field r.data 28 4) := by
          rintro _ rfl
          unfold NFile.validateSizes NFile.allocatedSize NFile.dataSize
          simp only [NFile.recordData]
          by_cases h32 : 32 ≤ r.data.length
          · rw [readLE_ok (by omega), readLE_ok (by omega)]
            simp only [Res.bind_ok]
            by_cases h1 : r.data.length < field r.data 28 4
            · rw [if_pos h1]; constructor
              · intro h; cases h
              · intro h; omega
            · rw [if_neg h1]
              by_cases h2 : field r.data 28 4 < field r.data 24 4
              · rw [if_pos h2]; constructor
                · intro h; cases h
                · intro h; omega
              · rw [if_neg h2]; simp; omega
          · have : readLE 4 r.data 28 = .panic .slice := by
              unfold readLE; rw [if_neg (by omega)]
            rw [this]; simp; omega
        have hval := hval ⟨ntfs, r, number⟩ rfl
        constructor
        · intro h
          rw [Res.bind_eq_ok] at h
          obtain ⟨_, h1, h2⟩ := h
          injection h2 with h2
          exact ⟨r, rfl, h2.symm, hval.1 h1⟩
        · rintro ⟨r', h1, h2, h3⟩
          injection h1 with h1; subst h1
          rw [hval.2 h3, h2]; rfl
      | err e => simp
      | panic p => simp
      | diverge => simp
    · simp [hs]
  · have : idxRange data 0 4 = .panic .slice := by
      unfold idxRange getRange; rw [if_neg (by omega)]
    rw [this]
    simp only [Res.bind_panic, reduceCtorEq, false_iff]
    rintro ⟨h, _⟩
    have := congrArg List.length h
    simp at this; omega

theorem NFile.new_ok {ntfs : Ntfs} {position number : Nat} {d d' : Dev} {f : NFile}
    (h : NFile.new ntfs position number d = (.ok f, d')) :
    ∃ data, NFile.ofBytes ntfs data position number = .ok f := by
  unfold NFile.new at h
  rw [StM.bind_apply] at h
  split at h <;> try (cases h; done)
  rw [StM.bind_apply] at h
  split at h <;> try (cases h; done)
  rename_i data _ _
  simp only [StM.lift_apply] at h
  injection h with h _
  exact ⟨data, h⟩

/-- Every file the crate hands out satisfies the hypothesis of C18. -/
theorem C18_opened (ntfs : Ntfs) (position number : Nat) (d d' : Dev) (f : NFile)
    (h : NFile.new ntfs position number d = (.ok f, d')) : 32 ≤ f.recordData.length := by
  obtain ⟨data, h⟩ := NFile.new_ok h
  obtain ⟨_, r, _, rfl, h32, _⟩ := (NFile.ofBytes_ok_iff _ _ _ _ _).1 h
  exact h32

/-- The chain of attributes is determined by the record. -/
theorem Spec.Chain.unique {d : Bytes} {off : Nat} {offs offs' : List Nat} {fin fin' : Nat}
    (h : Chain d off offs fin) (h' : Chain d off offs' fin')
    (he : ∀ len, ¬ AttrAt d fin len) (he' : ∀ len, ¬ AttrAt d fin' len) :
    offs = offs' ∧ fin = fin' := by
  induction h generalizing offs' with
  | nil off =>
    cases h' with
    | nil => exact ⟨rfl, rfl⟩
    | cons hx _ => exact absurd hx (he _)
  | cons hx t ih =>
    cases h' with
    | nil => exact absurd hx (he' _)
    | cons hx' t' =>
      have : _ = _ := hx.length.symm.trans hx'.length
      subst this
      obtain ⟨a, b⟩ := ih t' he
      exact ⟨by rw [a], b⟩

theorem Spec.EndsAt.noAttr {d : Bytes} {fin : Nat} (h : EndsAt d fin) (len : Nat) :
    ¬ AttrAt d fin len := by
  intro ha
  have := ha.header
  have := ha.inside
  exact ha.ty (h (by omega))

/-- C18, stated for a well-formed record: if the attributes of a record are the chain `offs`, these
are exactly what iteration yields, and then it ends. -/
theorem C18_wellformed (f : NFile) (h : 32 ≤ f.recordData.length) (offs : List Nat) (fin : Nat)
    (hc : Chain f.recordData (field f.recordData 20 2) offs fin) (he : EndsAt f.recordData fin) :
    ∃ it, f.attributesRaw = .ok it ∧ ∀ n, it.calls (offs.length + n) =
      (offs.map fun x => some (Res.ok (Attr.mk f x none))) ++ List.replicate n none := by
  obtain ⟨it, offs', fin', last, h1, h2, _, h3, h4⟩ := C18_tiles f h
  have hno : ∀ len, ¬ AttrAt f.recordData fin' len := by
    rcases h3 with ⟨h, _⟩ | ⟨_, h, _⟩
    · exact h.noAttr
    · exact h
  obtain ⟨rfl, rfl⟩ := hc.unique h2 he.noAttr hno
  have hl : last = none := by
    rcases h3 with ⟨_, h⟩ | ⟨h, _⟩
    · exact h
    · exact absurd he h
  subst hl
  refine ⟨it, h1, fun n => ?_⟩
  rw [h4, List.take_append, List.take_of_length_le (by simp)]
  simp

/-- C19, the part that holds: if the chain of attributes is terminated inside the used part of the
record, iteration yields only attributes inside the used part. Missing: a record whose chain runs
past the used size (see `C19_negation`). -/
theorem C19_used_part_partial (f : NFile) (h : 32 ≤ f.recordData.length) (offs : List Nat) (fin : Nat)
    (hc : Chain f.recordData (field f.recordData 20 2) offs fin) (he : EndsAt f.recordData fin)
    (hused : fin ≤ field f.recordData 24 4) :
    ∃ it, f.attributesRaw = .ok it ∧ ∀ n a, some (.ok a) ∈ it.calls n →
      a.offset + field f.recordData (a.offset + 4) 4 ≤ field f.recordData 24 4 := by
  obtain ⟨it, h1, h2⟩ := C18_wellformed f h offs fin hc he
  refine ⟨it, h1, fun n a ha => ?_⟩
  have hmono : ∀ (m : Nat) (it : AttrsRaw) x, x ∈ it.calls m → x ∈ it.calls (offs.length + m) := by
    intro m it x hx
    suffices hs : ∀ (k : Nat) (it : AttrsRaw), x ∈ it.calls m → x ∈ it.calls (m + k) by
      rw [Nat.add_comm]; exact hs _ it hx
    clear hx
    intro k
    induction m with
    | zero => intro it hx; cases hx
    | succ m ih =>
      intro it hx
      rw [Nat.add_right_comm]
      simp only [AttrsRaw.calls, List.mem_cons] at hx ⊢
      rcases hx with hx | hx
      · exact Or.inl hx
      · exact Or.inr (ih _ hx)
  have := hmono n it _ ha
  rw [h2 n, List.mem_append] at this
  rcases this with hm | hm
  · obtain ⟨x, hx, hxa⟩ := List.mem_map.1 hm
    injection hxa with hxa
    injection hxa with hxa
    subst hxa
    exact Nat.le_trans (hc.bounds.2.2 x hx).2.2 hused
  · have := List.eq_of_mem_replicate hm
    cases this

/-- A record with a $STANDARD_INFORMATION-typed attribute of 24 bytes at 56 and an unnamed $DATA
attribute of 24 bytes at 80, then the end marker; `used` is its used size. -/
def exRecord (used : UInt8) : Bytes :=
  [0x46, 0x49, 0x4C, 0x45, 48, 0, 1, 0,  0, 0, 0, 0, 0, 0, 0, 0,
   1, 0, 1, 0, 56, 0, 1, 0,  used, 0, 0, 0, 112, 0, 0, 0,
   0, 0, 0, 0, 0, 0, 0, 0,  3, 0, 0, 0, 0, 0, 0, 0,
   0, 0, 0, 0, 0, 0, 0, 0,
   0x10, 0, 0, 0, 24, 0, 0, 0,  0, 0, 0, 0, 0, 0, 0, 0,  0, 0, 0, 0, 24, 0, 0, 0,
   0x80, 0, 0, 0, 24, 0, 0, 0,  0, 0, 0, 0, 0, 0, 1, 0,  2, 0, 0, 0, 22, 0, 7, 9,
   0xFF, 0xFF, 0xFF, 0xFF, 0, 0, 0, 0]

/-- A volume with 112-byte records, for examples. -/
def exNtfs : Ntfs :=
  { clusterSize := 512, sectorSize := 512, size := 65536, mftPosition := some 512,
    fileRecordSize := 112, serialNumber := 0, upcaseTable := none }

/-- The example record is accepted, and its attributes form a chain that ends in the used part. -/
example : ∃ f, NFile.ofBytes exNtfs (exRecord 112) 512 7 = .ok f ∧ 32 ≤ f.recordData.length ∧
    field f.recordData 20 2 = 56 ∧ Chain f.recordData 56 [56, 80] 104 ∧
    EndsAt f.recordData 104 ∧ 104 ≤ field f.recordData 24 4 := by
  refine ⟨⟨exNtfs, ⟨exRecord 112, some 512⟩, 7⟩, by decide, by decide, by decide, ?_, ?_, by decide⟩
  · exact .cons (len := 24) ⟨by decide, by decide, by decide, by decide⟩
      (.cons (len := 24) ⟨by decide, by decide, by decide, by decide⟩ (.nil 104))
  · intro _; decide

/-- C19 does not hold: a record that the crate accepts, with a used size of 56 bytes, for which the
raw iterator yields the two attributes behind the used part. -/
theorem C19_negation : ∃ f it a, NFile.ofBytes exNtfs (exRecord 56) 512 7 = .ok f ∧
    f.dataSize = .ok 56 ∧ f.attributesRaw = .ok it ∧ it.next.1 = some (.ok a) ∧ 56 ≤ a.offset := by
  refine ⟨⟨exNtfs, ⟨exRecord 56, some 512⟩, 7⟩, ⟨⟨exNtfs, ⟨exRecord 56, some 512⟩, 7⟩, 56, 56⟩,
    ⟨⟨exNtfs, ⟨exRecord 56, some 512⟩, 7⟩, 56, none⟩, by decide, by decide, by decide, by decide,
    by decide⟩

/-! ### The theorems of this file on the example record -/

theorem exRecordChain : Chain (exRecord 112) 56 [56, 80] 104 :=
  .cons (len := 24) ⟨by decide, by decide, by decide, by decide⟩
    (.cons (len := 24) ⟨by decide, by decide, by decide, by decide⟩ (.nil 104))

example := C18_tiles ⟨exNtfs, ⟨exRecord 112, some 512⟩, 7⟩ (by decide)
example := C18_disjoint _ _ _ _ exRecordChain
example := C18_opened exNtfs 5 7 ⟨[1, 2, 3, 4, 5] ++ exRecord 112, 0, []⟩ _ ⟨exNtfs, ⟨exRecord 112, some 5⟩, 7⟩
  (Prod.ext (by decide +kernel) rfl)
example := C18_wellformed ⟨exNtfs, ⟨exRecord 112, some 512⟩, 7⟩ (by decide) _ _ exRecordChain (by intro _; decide)
example := C19_used_part_partial ⟨exNtfs, ⟨exRecord 112, some 512⟩, 7⟩ (by decide) _ _ exRecordChain (by intro _; decide) (by decide)

end NT
