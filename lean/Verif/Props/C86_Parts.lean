import Verif.Props.C83_Initialised
import Verif.Props.C51_BaseSplit

/-! C86: the parts of a file. An attribute list names the record of each part, the sequence number that this record should
have and the first cluster of the part; the record says to which file it belongs. -/

namespace NT

open Spec

/-! ### Fields of the file record that are not used -/

section
variable {a : Attr} {b : Bytes} {lo hi : Nat}

theorem Attr.behind_reads (hs : SameBut lo hi a.recordData b) (hh : hi ≤ a.offset) :
    (∀ n i, readLE n a.recordData (a.offset + i) = readLE n b (a.offset + i)) ∧
    (∀ i, idxByte a.recordData (a.offset + i) = idxByte b (a.offset + i)) ∧
    (∀ i j, idxRange a.recordData (a.offset + i) j = idxRange b (a.offset + i) j) ∧
    ∀ i j, getRange a.recordData (a.offset + i) j = getRange b (a.offset + i) j := by
  have g : ∀ i j, getRange a.recordData (a.offset + i) j = getRange b (a.offset + i) j :=
    fun i j => hs.getRange (.inr (by omega))
  refine ⟨fun n i => hs.readLE (.inr (by omega)), fun i => hs.idxByte (.inr (by omega)), fun i j => ?_, g⟩
  unfold idxRange
  rw [g]

/-- All that the library tells about an attribute that begins behind the bytes in which two records differ. -/
theorem Attr.behind (hs : SameBut lo hi a.recordData b) (hh : hi ≤ a.offset) :
    a.attributeLength = (withRecord a b).attributeLength ∧ a.flags = (withRecord a b).flags ∧
    a.inst = (withRecord a b).inst ∧ a.isResident = (withRecord a b).isResident ∧
    a.name = (withRecord a b).name ∧ a.ty = (withRecord a b).ty ∧ a.position = (withRecord a b).position ∧
    a.valueLength = (withRecord a b).valueLength ∧ (∀ d, a.value d = (withRecord a b).value d) ∧
    a.validateAttributeLength = (withRecord a b).validateAttributeLength := by
  obtain ⟨r, x, g, o⟩ := Attr.behind_reads hs hh
  have e1 : a.attributeLength = (withRecord a b).attributeLength := r 4 4
  have e2 : a.flags = (withRecord a b).flags := by
    show (do let x ← readLE 2 a.recordData (a.offset + 12); pure _ : Res Nat) =
      (do let x ← readLE 2 b (a.offset + 12); pure _ : Res Nat)
    rw [r]
  have e3 : a.inst = (withRecord a b).inst := r 2 14
  have e4 : a.isResident = (withRecord a b).isResident := by
    show (do let x ← idxByte a.recordData (a.offset + 8); pure _ : Res Bool) =
      (do let x ← idxByte b (a.offset + 8); pure _ : Res Bool)
    rw [x]
  have e5 : a.nameOffset = (withRecord a b).nameOffset := r 2 10
  have e6 : a.nameLength = (withRecord a b).nameLength := by
    show (do let x ← idxByte a.recordData (a.offset + 9); pure _ : Res Nat) =
      (do let x ← idxByte b (a.offset + 9); pure _ : Res Nat)
    rw [x]
  have e7 : a.name = (withRecord a b).name := Attr.name_same e5 e6 e1 fun i n _ _ _ y => o i y
  have e8 : a.ty = (withRecord a b).ty := by
    have : readLE 4 a.recordData a.offset = readLE 4 b a.offset := r 4 0
    show (do let t ← readLE 4 a.recordData a.offset; _ : Res AttrType) = (do let t ← readLE 4 b a.offset; _ : Res AttrType)
    rw [this]
    rfl
  have e9 : a.assertResident = (withRecord a b).assertResident := by
    unfold Attr.assertResident
    rw [e4]
  have e10 : a.assertNonResident = (withRecord a b).assertNonResident := by
    unfold Attr.assertNonResident
    rw [e4]
  have e11 : a.residentValueLength = (withRecord a b).residentValueLength := by
    unfold Attr.residentValueLength
    rw [e9, r]
    rfl
  have e12 : a.residentValueOffset = (withRecord a b).residentValueOffset := by
    unfold Attr.residentValueOffset
    rw [e9, r]
    rfl
  have e13 : a.nonResidentValueDataSize = (withRecord a b).nonResidentValueDataSize := by
    unfold Attr.nonResidentValueDataSize
    rw [e10, r]
    rfl
  have e14 : a.nonResidentValueDataRunsOffset = (withRecord a b).nonResidentValueDataRunsOffset := by
    unfold Attr.nonResidentValueDataRunsOffset
    rw [e10, r]
    rfl
  have e15 : a.valueLength = (withRecord a b).valueLength := by
    unfold Attr.valueLength
    rw [e4, e11, e13]
  have e16 : a.validateResidentValueSizes = (withRecord a b).validateResidentValueSizes := by
    unfold Attr.validateResidentValueSizes
    rw [e9, e1, e12, e11]
    rfl
  have e17 : a.residentValue = (withRecord a b).residentValue := by
    unfold Attr.residentValue
    rw [e9, e16, e12, e11]
    simp only [g]
    rfl
  have e18 : a.nonResidentValueDataAndPosition = (withRecord a b).nonResidentValueDataAndPosition := by
    unfold Attr.nonResidentValueDataAndPosition
    rw [e10, e14, e1]
    dsimp only
    simp only [o, hs.1]
    rfl
  have e19 : a.simpleValue = (withRecord a b).simpleValue := by
    unfold Attr.simpleValue Attr.nonResidentValue
    rw [e4, e17, e18, e13]
    rfl
  have e20 : a.value = (withRecord a b).value := by
    unfold Attr.value
    show (match a.list with | some l => _ | none => _ : StM Dev Val) = match a.list with | some l => _ | none => _
    cases a.list with
    | none => dsimp only; rw [e19]
    | some l => dsimp only; rw [e13, e3, e8]; rfl
  have e21 : a.validateAttributeLength = (withRecord a b).validateAttributeLength := by
    unfold Attr.validateAttributeLength
    rw [e1, hs.1]
    rfl
  exact ⟨e1, e2, e3, e4, e7, e8, rfl, e15, fun d => by rw [e20], e21⟩

end

/-- The file with other bytes in its record. -/
def Spec.withBytes (f : NFile) (b : Bytes) : NFile := { f with record := { f.record with data := b } }

section
variable {f : NFile} {b : Bytes} {lo hi : Nat}

theorem Attr.new_behind (hs : SameBut lo hi f.recordData b) (o : Nat) (l : Option AttrList) (hh : hi ≤ o) :
    Attr.new (withBytes f b) o l = (do let a ← Attr.new f o l; pure (withRecord a b)) := by
  have h := (Attr.behind (a := ⟨f, o, l⟩) hs hh).2.2.2.2.2.2.2.2.2
  unfold Attr.new
  show (do (withRecord ⟨f, o, l⟩ b).validateAttributeLength; _ : Res Attr) = _
  rw [← h]
  dsimp only
  cases (Attr.validateAttributeLength ⟨f, o, l⟩) <;> rfl

theorem AttrsRaw.find_behind (hs : SameBut lo hi f.recordData b) (t : AttrType) (n : Option (List Nat)) (i : Option Nat) :
    ∀ (fuel o stop : Nat), hi ≤ o → AttrsRaw.find t n i fuel ⟨withBytes f b, o, stop⟩ =
      (do let a ← AttrsRaw.find t n i fuel ⟨f, o, stop⟩; pure (withRecord a b))
  | 0, _, _, _ => rfl
  | fuel + 1, o, stop, ho => by
    have e0 : getRange (withBytes f b).recordData o (o + 4) = getRange f.recordData o (o + 4) :=
      (hs.getRange (.inr ho)).symm
    unfold AttrsRaw.find AttrsRaw.next
    dsimp only
    rw [e0]
    cases getRange f.recordData o (o + 4) with
    | none => rfl
    | some x =>
      dsimp only
      by_cases hx : leNat x = AttrType.end_.code
      · rw [if_pos hx, if_pos hx]
        rfl
      · rw [if_neg hx, if_neg hx, Attr.new_behind hs o none ho]
        cases hn : Attr.new f o none with
        | err e => rfl
        | panic e => rfl
        | diverge => rfl
        | ok a =>
          obtain ⟨rfl, _⟩ := Attr.new_ok_iff.1 hn
          obtain ⟨g1, _, g3, _, g5, g6, _⟩ := Attr.behind (a := ⟨f, o, none⟩) hs ho
          show (match (match (withRecord ⟨f, o, none⟩ b).attributeLength with
            | .ok len => _ | .err e => _ | .panic p => _ | .diverge => _ : Option (Res Attr) × AttrsRaw) with
            | (none, _) => _ | (some r, it') => _ : Res Attr) = _
          dsimp only
          rw [← g1]
          cases Attr.attributeLength ⟨f, o, none⟩ with
          | err e => rfl
          | panic e => rfl
          | diverge => rfl
          | ok len =>
            have ih := AttrsRaw.find_behind hs t n i fuel (o + len) stop (by omega)
            have im : ∀ j, Attr.instMatches (withRecord ⟨f, o, none⟩ b) j = Attr.instMatches ⟨f, o, none⟩ j := by
              intro j
              unfold Attr.instMatches
              rw [← g3]
            have nm : ∀ j, Attr.nameMatches (withRecord ⟨f, o, none⟩ b) j = Attr.nameMatches ⟨f, o, none⟩ j := by
              intro j
              unfold Attr.nameMatches
              rw [← g5]
            dsimp only
            simp only [Res.bind_ok, ← g6, im, nm, ih]
            cases Attr.ty ⟨f, o, none⟩ with
            | err e => rfl
            | panic e => rfl
            | diverge => rfl
            | ok t' =>
              simp only [Res.bind_ok]
              by_cases ht : t' ≠ t
              · rw [if_pos ht, if_pos ht]
              · rw [if_neg ht, if_neg ht]
                cases Attr.instMatches ⟨f, o, none⟩ i with
                | err e => rfl
                | panic e => rfl
                | diverge => rfl
                | ok y =>
                  cases y
                  · rfl
                  · cases Attr.nameMatches ⟨f, o, none⟩ n with
                    | err e => rfl
                    | panic e => rfl
                    | diverge => rfl
                    | ok z => cases z <;> rfl

/-- **C86**: two file records that differ only in the reference to the file that they belong to (or in the log sequence
number, or in the next instance number) cannot be told apart: the file answers all questions in the same way, the same
attributes are found at the same places, and they have the same values. So nothing can depend on whether a record belongs
to the file whose attribute list leads to it. -/
theorem C86_owner_unnoticed (hf : 8 ≤ lo ∧ hi ≤ 16 ∨ 32 ≤ lo ∧ hi ≤ 42) (hs : SameBut lo hi f.recordData b)
    (h22 : 22 ≤ f.recordData.length) (hfirst : 42 ≤ field f.recordData 20 2) :
    f.sequenceNumber = (withBytes f b).sequenceNumber ∧ f.hardLinkCount = (withBytes f b).hardLinkCount ∧
    f.firstAttributeOffset = (withBytes f b).firstAttributeOffset ∧ f.flags = (withBytes f b).flags ∧
    f.isDirectory = (withBytes f b).isDirectory ∧ f.dataSize = (withBytes f b).dataSize ∧
    f.allocatedSize = (withBytes f b).allocatedSize ∧
    (∀ t n i, (withBytes f b).findResidentAttribute t n i =
      (do let a ← f.findResidentAttribute t n i; pure (withRecord a b))) ∧
    ∀ o l, 42 ≤ o → Attr.new (withBytes f b) o l = (do let a ← Attr.new f o l; pure (withRecord a b)) ∧
      (Attr.flags ⟨f, o, l⟩ = Attr.flags ⟨withBytes f b, o, l⟩ ∧ Attr.inst ⟨f, o, l⟩ = Attr.inst ⟨withBytes f b, o, l⟩ ∧
        Attr.isResident ⟨f, o, l⟩ = Attr.isResident ⟨withBytes f b, o, l⟩ ∧
        Attr.name ⟨f, o, l⟩ = Attr.name ⟨withBytes f b, o, l⟩ ∧ Attr.ty ⟨f, o, l⟩ = Attr.ty ⟨withBytes f b, o, l⟩ ∧
        ∀ d, Attr.value ⟨f, o, l⟩ d = Attr.value ⟨withBytes f b, o, l⟩ d) := by
  have r : ∀ n i, (i + n ≤ 8 ∨ 16 ≤ i ∧ i + n ≤ 32) → readLE n f.recordData i = readLE n b i :=
    fun n i h => hs.readLE (by omega)
  have e1 : f.firstAttributeOffset = (withBytes f b).firstAttributeOffset := r 2 20 (by omega)
  have e2 : f.dataSize = (withBytes f b).dataSize := r 4 24 (by omega)
  have e3 : f.flags = (withBytes f b).flags := by
    have := r 2 22 (by omega)
    show (do let x ← readLE 2 f.recordData 22; pure _ : Res Nat) = (do let x ← readLE 2 b 22; pure _ : Res Nat)
    rw [this]
  refine ⟨r 2 16 (by omega), r 2 18 (by omega), e1, e3, ?_, e2, r 4 28 (by omega), fun t n i => ?_, fun o l ho => ?_⟩
  · unfold NFile.isDirectory
    rw [e3]
  · have hv : f.firstAttributeOffset = .ok (field f.recordData 20 2) := by
      unfold NFile.firstAttributeOffset readLE
      rw [if_pos (by omega)]
      rfl
    unfold NFile.findResidentAttribute NFile.attributesRaw
    rw [← e1, ← e2, hv]
    have hl : (withBytes f b).recordData.length = f.recordData.length := hs.1.symm
    rw [hl]
    cases f.dataSize with
    | err e => rfl
    | panic e => rfl
    | diverge => rfl
    | ok s => exact AttrsRaw.find_behind hs t n i _ _ s (by omega)
  · obtain ⟨_, g2, g3, g4, g5, g6, _, _, g9, _⟩ := Attr.behind (a := ⟨f, o, l⟩) hs (by show hi ≤ o; omega)
    exact ⟨Attr.new_behind hs o l (by omega), g2, g3, g4, g5, g6, g9⟩

end

/-! ### The parts of a value -/

namespace Spec

/-- The value of the attribute is split over `parts`, as the attribute list behind it says; its size is `size`. -/
structure PartsAt (a : Attr) (img : Bytes) (parts : List Part) (size : Nat) : Prop where
  list : ∃ mft mftEs mpre moff mlen mstart inst ty rest b l,
    MftStored a.file.ntfs img mft mftEs mpre moff mlen mstart ∧
    (∀ p ∈ parts, p.Stored a.file.ntfs img mftEs inst ty) ∧ OtherValue inst ty rest ∧
    ListEncodes (parts.map Part.entry ++ rest) b ∧ l.Holds img b ∧ a.list = some l ∧
    field a.recordData (a.offset + 14) 2 = inst ∧ field a.recordData a.offset 4 = ty.code
  some_ : parts ≠ []
  header : a.offset + 56 ≤ a.recordData.length
  nonRes : field a.recordData (a.offset + 8) 1 ≠ 0
  size : field a.recordData (a.offset + 48) 8 = size

/-- The number of clusters that the extents describe. -/
def clusterCount (es : List Extent) : Nat := (es.map Extent.count).sum

/-- `c` has the bytes of each part where the attribute list says: at the first cluster of the part. -/
def ByVcn (cs : Nat) (img : Bytes) (parts : List Part) (size : Nat) (c : Bytes) : Prop :=
  ∀ p ∈ parts, ∃ v : Nat, p.entry.vcn = v ∧
    ∀ i x, (content cs img p.es)[i]? = some x → v * cs + i < size → c[v * cs + i]? = some x

/-- Each part begins at the cluster where the one before it ends, the first one at cluster `n`. -/
def Contiguous : Nat → List Part → Prop
  | _, [] => True
  | n, p :: ps => p.entry.vcn = n ∧ Contiguous (n + clusterCount p.es) ps

/-- The record `f` says that it belongs to the file `base`. -/
def OwnedBy (base f : NFile) : Prop :=
  field f.recordData 32 6 = base.number ∧ field f.recordData 38 2 = field base.recordData 16 2

/-- The record of the part still has the sequence number that the attribute list gives. -/
def _root_.NT.Part.Current (p : Part) : Prop := p.entry.ref / 2 ^ 48 = field p.file.recordData 16 2

/-- The part as a list describes it that has another first cluster and another sequence number for it. -/
def _root_.NT.Part.described (p : Part) (vcn : Int) (seq : Nat) : Part :=
  { p with entry := { p.entry with vcn := vcn, ref := p.number + 2 ^ 48 * seq } }

end Spec

theorem Spec.PartsAt.opens {a : Attr} {img : Bytes} {parts : List Part} {size : Nat} (h : PartsAt a img parts size) :
    a.Opens img ((content a.file.ntfs.clusterSize img (parts.flatMap Part.es)).take size) size := by
  obtain ⟨mft, mftEs, mpre, moff, mlen, mstart, inst, ty, rest, b, l, hm, hp, hr, he, hh, hl, hi, ht⟩ := h.list
  exact Attr.opens_list hm parts h.some_ hp rest hr b he l hh a hl rfl h.header h.nonRes hi ht size h.size

theorem Spec.content_length {cs : Nat} {img : Bytes} {es : List Extent} (h : InImage cs img es) :
    (content cs img es).length = clusterCount es * cs := by
  unfold content clusterCount
  induction es with
  | nil => simp
  | cons e es ih =>
    rw [List.flatMap_cons, List.length_append, ih fun x hx => h x (List.mem_cons_of_mem _ hx), List.map_cons,
      List.sum_cons, Nat.add_mul]
    congr 1
    have := h e List.mem_cons_self
    unfold Extent.bytes
    cases hl : e.lcn with
    | none => simp
    | some l =>
      have := this l hl
      rw [List.length_take, List.length_drop]
      omega

theorem Spec.Contiguous.byVcn {cs : Nat} {img : Bytes} (size : Nat) : ∀ (parts : List Part) (n : Nat),
    (∀ p ∈ parts, InImage cs img p.es) → Contiguous n parts → ∀ (pre : Bytes), pre.length = n * cs →
    ByVcn cs img parts size ((pre ++ content cs img (parts.flatMap Part.es)).take size)
  | [], _, _, _, _, _ => fun p hp => nomatch hp
  | q :: ps, n, hin, hc, pre, hpre => by
    have hq := content_length (hin q List.mem_cons_self)
    have e : pre ++ content cs img ((q :: ps).flatMap Part.es) =
        (pre ++ content cs img q.es) ++ content cs img (ps.flatMap Part.es) := by
      unfold content
      rw [List.flatMap_cons, List.flatMap_append, List.append_assoc]
    intro p hp
    rw [e]
    rcases List.mem_cons.1 hp with rfl | hp
    · refine ⟨n, hc.1, fun i x hx hlt => ?_⟩
      have hi : i < (content cs img p.es).length := (List.getElem?_eq_some_iff.1 hx).1
      rw [List.getElem?_take_of_lt hlt, List.getElem?_append_left (by rw [List.length_append]; omega),
        List.getElem?_append_right (by omega), hpre, Nat.add_sub_cancel_left]
      exact hx
    · exact Contiguous.byVcn size ps (n + clusterCount q.es) (fun p h => hin p (List.mem_cons_of_mem _ h)) hc.2 _
        (by rw [List.length_append, hpre, hq, Nat.add_mul]) p hp

/-- **C86**: if the parts follow one another in the list, from cluster 0 on, each part is read at the clusters for which
the list gives it. -/
theorem C86_in_order {a : Attr} {img : Bytes} {parts : List Part} {size : Nat} (h : PartsAt a img parts size)
    (hc : Contiguous 0 parts) : ∃ c, a.Opens img c size ∧ ByVcn a.file.ntfs.clusterSize img parts size c := by
  refine ⟨_, h.opens, ?_⟩
  obtain ⟨mft, mftEs, mpre, moff, mlen, mstart, inst, ty, rest, b, l, hm, hp, _⟩ := h.list
  exact hc.byVcn size parts 0 (fun p hp' => (hp p hp').runs.inImage) [] (by simp)

/-- **C86, partial**: the exact law of the code. The value reads as the bytes of its parts in the order of the list. That
is right if and only if these bytes are where the list says.

Full claim: each part is read at the clusters for which the list gives it. It is false for lists that are not in order or
that have gaps, see `C86_order_negation`. -/
theorem C86_exact_partial {a : Attr} {img : Bytes} {parts : List Part} {size : Nat} (h : PartsAt a img parts size) :
    a.Opens img ((content a.file.ntfs.clusterSize img (parts.flatMap Part.es)).take size) size ∧
      ((∃ c, a.Opens img c size ∧ ByVcn a.file.ntfs.clusterSize img parts size c) ↔
        ByVcn a.file.ntfs.clusterSize img parts size
          ((content a.file.ntfs.clusterSize img (parts.flatMap Part.es)).take size)) :=
  ⟨h.opens, fun ⟨_, h1, h2⟩ => (h.opens.unique h1).1 ▸ h2, fun h2 => ⟨_, h.opens, h2⟩⟩

/-- **C86**: the first clusters and the sequence numbers in an attribute list make no difference: with a list that gives
others, the value is the same. -/
theorem C86_list_unnoticed {a : Attr} {img : Bytes} {parts : List Part} {size : Nat} (h : PartsAt a img parts size)
    (vcn : Part → Int) (seq : Part → Nat) (rest' : List LEntry) (b' : Bytes) (l' : AttrList)
    (hr' : ∀ inst ty, field a.recordData (a.offset + 14) 2 = inst → field a.recordData a.offset 4 = AttrType.code ty →
      OtherValue inst ty rest')
    (he : ListEncodes ((parts.map fun p => p.described (vcn p) (seq p)).map Part.entry ++ rest') b')
    (hh : l'.Holds img b') (c : Bytes) (n : Nat) :
    a.Opens img c n ↔ Attr.Opens img { a with list := some l' } c n := by
  have key : PartsAt { a with list := some l' } img (parts.map fun p => p.described (vcn p) (seq p)) size := by
    obtain ⟨mft, mftEs, mpre, moff, mlen, mstart, inst, ty, rest, b, l, hm, hp, hr, _, _, hl, hi, ht⟩ := h.list
    refine ⟨⟨mft, mftEs, mpre, moff, mlen, mstart, inst, ty, rest', b', l', hm, fun q hq => ?_, hr' _ _ hi ht, he, hh, rfl,
      hi, ht⟩, fun e => h.some_ (List.map_eq_nil_iff.1 e), h.header, h.nonRes, h.size⟩
    obtain ⟨p, hp', rfl⟩ := List.mem_map.1 hq
    have s := hp p hp'
    have hn : Part.number (p.described (vcn p) (seq p)) = p.number := by
      show (p.number + 2 ^ 48 * seq p) % 2 ^ 48 = p.number
      rw [Nat.add_mul_mod_self_left]
      exact Nat.mod_mod _ _
    exact { s with
      numberLt := by rw [hn]; exact s.numberLt
      record := by rw [hn]; exact s.record }
  have e : (parts.map fun p => p.described (vcn p) (seq p)).flatMap Part.es = parts.flatMap Part.es := by
    rw [List.flatMap_map]
    rfl
  have k := key.opens
  rw [e] at k
  constructor
  · intro h1
    obtain ⟨rfl, rfl⟩ := h.opens.unique h1
    exact k
  · intro h1
    obtain ⟨rfl, rfl⟩ := k.unique h1
    exact h.opens

/-! ### Examples -/

/-- Two parts of `exPartsImage` whose list entries have the given first clusters and sequence number. -/
def exPartsAt (v w : Int) (seq : Nat) : List Part :=
  [(exPart 192 1 7).described v seq, (exPart 320 2 9).described w seq]

set_option maxRecDepth 20000 in
theorem exPartsAt_parts (v w : Int) (seq : Nat) (hv : -(I63 : Int) ≤ v ∧ v < (I63 : Int))
    (hw : -(I63 : Int) ≤ w ∧ w < (I63 : Int)) (hs : seq < 1000) :
    ∃ l, PartsAt ⟨exPartsFile 192 1, 56, some l⟩ exPartsImage (exPartsAt v w seq) 100 := by
  have hb : ∃ b, ListEncodes ((exPartsAt v w seq).map Part.entry ++ []) b :=
    ⟨_, .cons _ [] _ _ ⟨by show (128 : Nat) < U32; decide, hv, by show 1 + 2 ^ 48 * seq < U64; omega,
        by show (5 : Nat) < U16; decide, by show 0 < 256; decide, fun x hx => nomatch hx⟩ (by show 26 < U16; decide)
      (.cons _ [] _ _ ⟨by show (128 : Nat) < U32; decide, hw, by show 2 + 2 ^ 48 * seq < U64; omega,
        by show (5 : Nat) < U16; decide, by show 0 < 256; decide, fun x hx => nomatch hx⟩ (by show 26 < U16; decide) .nil)⟩
  obtain ⟨b, hb⟩ := hb
  have hf : field (exPartsFile 192 1).recordData (56 + 14) 2 = 5 ∧
      field (exPartsFile 192 1).recordData 56 4 = AttrType.data.code ∧ 56 + 56 ≤ (exPartsFile 192 1).recordData.length ∧
      field (exPartsFile 192 1).recordData (56 + 8) 1 ≠ 0 ∧ field (exPartsFile 192 1).recordData (56 + 48) 8 = 100 := by
    decide
  have h1 : (1 + 2 ^ 48 * seq) % 2 ^ 48 = 1 := by omega
  have h2 : (2 + 2 ^ 48 * seq) % 2 ^ 48 = 2 := by omega
  refine ⟨.resident b none, ⟨_, _, _, _, _, _, 5, .data, [], b, .resident b none, exPartsStored, fun p hp => ?_,
    (fun e he => nomatch he), hb, rfl, rfl, hf.1, hf.2.1⟩, List.cons_ne_nil _ _, hf.2.2.1, hf.2.2.2.1, hf.2.2.2.2⟩
  simp only [exPartsAt, List.mem_cons, List.not_mem_nil, or_false] at hp
  rcases hp with rfl | rfl
  · have s := exPart_stored.1
    have e : Part.number ((exPart 192 1 7).described v seq) = Part.number (exPart 192 1 7) := h1
    exact { s with
      numberLt := by rw [e]; exact s.numberLt
      record := by rw [e]; exact s.record }
  · have s := exPart_stored.2
    have e : Part.number ((exPart 320 2 9).described w seq) = Part.number (exPart 320 2 9) := h2
    exact { s with
      numberLt := by rw [e]; exact s.numberLt
      record := by rw [e]; exact s.record }

set_option maxRecDepth 20000 in
/-- **C86 is violated.** A value has two parts. The list names first the part for cluster 1 and then the one for cluster 0.
The value is opened without an error, and reads with its parts in the wrong places. -/
theorem C86_order_negation : ∃ l, PartsAt ⟨exPartsFile 192 1, 56, some l⟩ exPartsImage (exPartsAt 1 0 1) 100 ∧
    Attr.Opens exPartsImage ⟨exPartsFile 192 1, 56, some l⟩ (List.replicate 64 0x77 ++ List.replicate 36 0x99) 100 ∧
    ¬ ∃ c, Attr.Opens exPartsImage ⟨exPartsFile 192 1, 56, some l⟩ c 100 ∧
      ByVcn 64 exPartsImage (exPartsAt 1 0 1) 100 c := by
  obtain ⟨l, h⟩ := exPartsAt_parts 1 0 1 (by decide) (by decide) (by decide)
  have e : (content 64 exPartsImage ((exPartsAt 1 0 1).flatMap Part.es)).take 100 =
      List.replicate 64 0x77 ++ List.replicate 36 0x99 := by decide
  refine ⟨l, h, e ▸ h.opens, fun hc => ?_⟩
  have := (C86_exact_partial h).2.1 hc
  rw [show (Attr.file ⟨exPartsFile 192 1, 56, some l⟩).ntfs.clusterSize = 64 from rfl, e] at this
  obtain ⟨v, hv, hx⟩ := this ((exPart 320 2 9).described 0 1) (by simp [exPartsAt])
  have h0 : v = 0 := by
    have : (0 : Int) = v := hv
    omega
  subst h0
  exact absurd (hx 0 0x99 (by decide) (by decide)) (by decide)

set_option maxRecDepth 20000 in
/-- **C86 is violated.** A value is read from two records although both have another sequence number than the list gives,
that is, were given to other files after the list had been written. -/
theorem C86_stale_negation : ∃ l, PartsAt ⟨exPartsFile 192 1, 56, some l⟩ exPartsImage (exPartsAt 0 1 9) 100 ∧
    (∀ p ∈ exPartsAt 0 1 9, ¬ p.Current) ∧
    Attr.Opens exPartsImage ⟨exPartsFile 192 1, 56, some l⟩ (List.replicate 64 0x77 ++ List.replicate 36 0x99) 100 := by
  obtain ⟨l, h⟩ := exPartsAt_parts 0 1 9 (by decide) (by decide) (by decide)
  have e : (content 64 exPartsImage ((exPartsAt 0 1 9).flatMap Part.es)).take 100 =
      List.replicate 64 0x77 ++ List.replicate 36 0x99 := by decide
  refine ⟨l, h, fun p hp => ?_, e ▸ h.opens⟩
  simp only [exPartsAt, List.mem_cons, List.not_mem_nil, or_false] at hp
  unfold Part.Current
  rcases hp with rfl | rfl <;> decide

set_option maxRecDepth 20000 in
/-- In order, the parts are read where they belong. -/
example : ∃ l c, Attr.Opens exPartsImage ⟨exPartsFile 192 1, 56, some l⟩ c 100 ∧
    ByVcn 64 exPartsImage (exPartsAt 0 1 1) 100 c := by
  obtain ⟨l, h⟩ := exPartsAt_parts 0 1 1 (by decide) (by decide) (by decide)
  obtain ⟨c, h1, h2⟩ := C86_in_order h ⟨rfl, rfl, trivial⟩
  exact ⟨l, c, h1, h2⟩

/-- Other first clusters and sequence numbers for the same parts make no difference. -/
example : ∃ l b', ∀ c n, Attr.Opens exPartsImage ⟨exPartsFile 192 1, 56, some l⟩ c n ↔
    Attr.Opens exPartsImage ⟨exPartsFile 192 1, 56, some (.resident b' none)⟩ c n := by
  obtain ⟨l, h⟩ := exPartsAt_parts 0 1 1 (by decide) (by decide) (by decide)
  have hb : ∃ b', ListEncodes (((exPartsAt 0 1 1).map fun p => p.described 5 9).map Part.entry ++ []) b' :=
    ⟨_, .cons _ [] _ _ ⟨by decide, by decide, by decide, by decide, by decide, by decide⟩ (by decide)
      (.cons _ [] _ _ ⟨by decide, by decide, by decide, by decide, by decide, by decide⟩ (by decide) .nil)⟩
  obtain ⟨b', hb⟩ := hb
  exact ⟨l, b', fun c n => C86_list_unnoticed h (fun _ => 5) (fun _ => 9) [] _ (.resident _ none)
    (fun _ _ _ _ e he => nomatch he) hb rfl c n⟩

set_option maxRecDepth 20000 in
/-- **C86 is violated.** The attribute list of record 1 leads to record 2. That record says of itself that it is no part of
another file (its reference is zero). Its attribute is shown as one of record 1, as the first one of the iteration. -/
theorem C86_owner_negation : ∃ (mft : NFile) (mftEs : List Extent) (pre : List Nat) (moff mlen mstart : Nat),
    MftStored exBaseNtfs exBaseImage mft mftEs pre moff mlen mstart ∧
    ListStored exBaseNtfs exBaseImage (exBaseFile 1) 56 72 [exBaseEntry 0 1 2, exBaseEntry 1 2 0] ∧
    field (exBaseFile 2).recordData 32 8 = 0 ∧ ¬ OwnedBy (exBaseFile 1) (exBaseFile 2) ∧
    ∀ (d : Dev), d.NoFail → d.img = exBaseImage → ∃ it i, (exBaseFile 1).attributes = .ok it ∧
      Attrs.calls 1 (it, d) = [.ok (some i)] ∧ i.file = exBaseFile 1 ∧ i.valueFile = some (exBaseFile 2) ∧
      Loads exBaseNtfs exBaseImage mftEs (exBaseEntry 1 2 0) (exBaseFile 2) i.offset := by
  refine ⟨_, _, _, _, _, _, exBaseMft, exBaseList, by decide, fun h => absurd h.1 (by decide), fun d hd hi => ?_⟩
  have hA : AttrAt (exBaseFile 1).recordData 56 72 := ⟨by decide, by decide, by decide, by decide⟩
  have hB : AttrAt (exBaseFile 1).recordData 128 72 := ⟨by decide, by decide, by decide, by decide⟩
  obtain ⟨it, rs, q1, q2, q3⟩ := C23_with_list exBaseMft (exBaseFile 1) rfl (by decide) [] [128] 56 72 200
    (.cons hA (.cons hB (.nil 200)))
    (by
      intro o ho
      simp only [List.nil_append, List.mem_cons, List.not_mem_nil, or_false] at ho
      subst ho
      decide) hA _ exBaseList
    (by
      intro e he
      simp only [List.mem_cons, List.not_mem_nil, or_false] at he
      rcases he with rfl | rfl <;> exact ⟨.data, rfl⟩)
    _ exBaseGroups (.ok none) (.inl ⟨fun h => absurd h (by decide), rfl⟩) d hd hi 0
  cases q2 with
  | cons hs ht =>
    cases ht with
    | nil =>
      rcases hs with ⟨i, file, rfl, p2, p3, p4, _⟩ | ⟨x, rfl, p2⟩
      · have hfile : file = exBaseFile 2 := by
          obtain ⟨_, ⟨a, h1, _, h2⟩, _⟩ := exBaseLoads.1
          obtain ⟨_, ⟨a', h1', _, h2'⟩, _⟩ := p4
          rw [h1] at h1'
          cases h1'
          rw [h2] at h2'
          exact (Res.ok.inj h2').symm
        subst hfile
        refine ⟨it, i, q1, ?_, p2, p3, p4⟩
        have := congrArg (List.take 1) q3
        simpa [Attrs.calls] using this
      · exact absurd p2 exBaseLoads.1.not_fails

set_option maxRecDepth 20000 in
/-- Record 2 with a reference to record 1 meets the hypotheses of `C86_owner_unnoticed`. -/
example : (withBytes (exBaseFile 2) (overwrite (exBaseFile 2).recordData 32 [1, 0, 0, 0, 0, 0, 1, 0])).findResidentAttribute
    .data none (some 0) = .ok (withRecord ⟨exBaseFile 2, 56, none⟩
      (overwrite (exBaseFile 2).recordData 32 [1, 0, 0, 0, 0, 0, 1, 0])) := by
  rw [(C86_owner_unnoticed (f := exBaseFile 2) (lo := 32) (hi := 40) (.inr (by decide)) ⟨by rw [overwrite_length (by decide)],
    fun i hi => ?_⟩ (by decide) (by decide)).2.2.2.2.2.2.2.1]
  · have : (exBaseFile 2).findResidentAttribute .data none (some 0) = .ok ⟨exBaseFile 2, 56, none⟩ := by decide +kernel
    rw [this]
    rfl
  · rw [overwrite_getElem? (by decide)]
    simp only [List.length_cons, List.length_nil]
    by_cases h : i < 32
    · rw [if_pos h]
    · rw [if_neg h, if_neg (by omega)]

end NT
