import Verif.Props.C53_Copy
import Verif.Model.Index

/-! C83: the part of a value beyond its initialised size. NTFS defines it to be zeros, whatever the clusters hold (they
may hold bytes of deleted files). The library does not look at the field. -/

namespace NT

namespace Spec

/-- The bytes of a value of which the first `n` are initialised, stored in clusters with the bytes `stored`. -/
def initialised (stored : Bytes) (n : Nat) : Bytes := stored.take n ++ List.replicate (stored.length - n) 0

/-- The attribute has its value in clusters, described by runs that follow its header of 64 bytes and encode the extents
`es`; `size` and `init` are the size of the value and of its initialised part. -/
structure ClustersAt (a : Attr) (img : Bytes) (es : List Extent) (size init : Nat) : Prop where
  one : a.list = none
  header : a.offset + 64 ≤ a.recordData.length
  nonRes : field a.recordData (a.offset + 8) 1 ≠ 0
  size : field a.recordData (a.offset + 48) 8 = size
  init : field a.recordData (a.offset + 56) 8 = init
  after : 64 ≤ field a.recordData (a.offset + 32) 2
  order : field a.recordData (a.offset + 32) 2 ≤ field a.recordData (a.offset + 4) 4
  inside : a.offset + field a.recordData (a.offset + 4) 4 ≤ a.recordData.length
  stored : StoredAs a.file.ntfs.clusterSize img
    ((a.recordData.drop (a.offset + field a.recordData (a.offset + 32) 2)).take
      (field a.recordData (a.offset + 4) 4 - field a.recordData (a.offset + 32) 2)) es

/-- The bytes `b` and `b'` differ at most in the positions from `lo` to below `hi`. -/
def SameBut (lo hi : Nat) (b b' : Bytes) : Prop :=
  b.length = b'.length ∧ ∀ i, i < lo ∨ hi ≤ i → b[i]? = b'[i]?

end Spec

open Spec

/-! ### What is read -/

theorem Spec.ClustersAt.opens {a : Attr} {img : Bytes} {es : List Extent} {size init : Nat}
    (h : ClustersAt a img es size init) : a.Opens img ((content a.file.ntfs.clusterSize img es).take size) size :=
  Attr.opens_nonResident img a (Nat.le_trans (Nat.add_le_add_left (by decide) _) h.header) h.one
    (Nat.le_trans (Nat.add_le_add_left (by decide) _) h.header) h.nonRes _ _ _ rfl rfl h.inside h.order h.size es h.stored

/-- The bytes of a value are determined by what it reads. -/
theorem Attr.Opens.unique {a : Attr} {img c c' : Bytes} {n n' : Nat} (h : a.Opens img c n) (h' : a.Opens img c' n') :
    c = c' ∧ n = n' := by
  have hd : Dev.Ok img ⟨img, 0, []⟩ := ⟨rfl, fun _ h => by cases h⟩
  obtain ⟨v, d1, w, d2, e1, e2, e3, _⟩ := C53_copy_all h _ hd [0] (List.cons_ne_nil _ _) (c.length + c'.length + 1)
    (by omega)
  obtain ⟨v', d1', w', d2', e1', e2', e3', _⟩ := C53_copy_all h' _ hd [0] (List.cons_ne_nil _ _)
    (c.length + c'.length + 1) (by omega)
  rw [e1] at e1'
  cases e1'
  rw [e3] at e3'
  exact ⟨congrArg (fun x => x.2.2) e3', e2.symm.trans e2'⟩

theorem Spec.initialised_eq_iff (c : Bytes) (n : Nat) :
    c = initialised c n ↔ ∀ i x, n ≤ i → c[i]? = some x → x = 0 := by
  unfold initialised
  constructor
  · intro h i x hi hx
    rw [h, List.getElem?_append_right (by rw [List.length_take]; omega), List.getElem?_replicate] at hx
    split at hx
    · exact (Option.some.inj hx).symm
    · cases hx
  · intro h
    apply List.ext_getElem?
    intro i
    by_cases hi : i < n
    · by_cases hc : i < c.length
      · rw [List.getElem?_append_left (by rw [List.length_take]; omega), List.getElem?_take_of_lt hi]
      · rw [List.getElem?_eq_none (by omega), List.getElem?_eq_none (by
          rw [List.length_append, List.length_take, List.length_replicate]; omega)]
    · rw [List.getElem?_append_right (by rw [List.length_take]; omega), List.getElem?_replicate, List.length_take]
      by_cases hc : i < c.length
      · rw [if_pos (by omega), List.getElem?_eq_getElem hc]
        exact congrArg some (h i _ (by omega) (List.getElem?_eq_getElem hc))
      · rw [if_neg (by omega), List.getElem?_eq_none (by omega)]

/-- **C83, partial**: the exact law of the code. The value reads as the bytes of its clusters up to its size, whatever
its initialised size is. That is right if and only if the clusters hold zeros beyond the initialised part.

Full claim: it is right for all contents of the clusters. It is false, see `C83_negation`. For values that
are split over several records see `C83_split_partial`. -/
theorem C83_exact_partial {a : Attr} {img : Bytes} {es : List Extent} {size init : Nat}
    (h : ClustersAt a img es size init) :
    a.Opens img ((content a.file.ntfs.clusterSize img es).take size) size ∧
      (a.Opens img (initialised ((content a.file.ntfs.clusterSize img es).take size) init) size ↔
        ∀ i x, init ≤ i → ((content a.file.ntfs.clusterSize img es).take size)[i]? = some x → x = 0) := by
  refine ⟨h.opens, fun h' => (initialised_eq_iff _ _).1 (h.opens.unique h').1, fun hz => ?_⟩
  rw [← (initialised_eq_iff _ _).2 hz]
  exact h.opens

/-- **C83**: a fully initialised value reads as it should. -/
theorem C83_whole {a : Attr} {img : Bytes} {es : List Extent} {size init : Nat} (h : ClustersAt a img es size init)
    (hi : size ≤ init) : a.Opens img (initialised ((content a.file.ntfs.clusterSize img es).take size) init) size := by
  refine (C83_exact_partial h).2.2 fun i x hx e => ?_
  rw [List.getElem?_eq_none (by rw [List.length_take]; omega)] at e
  cases e

/-- **C83**: so does a value whose clusters end with the initialised part, the rest being sparse. -/
theorem C83_sparse {a : Attr} {img : Bytes} {es : List Extent} {n size init : Nat}
    (h : ClustersAt a img (es ++ [⟨n, none⟩]) size init)
    (hi : (content a.file.ntfs.clusterSize img es).length ≤ init) :
    a.Opens img (initialised ((content a.file.ntfs.clusterSize img (es ++ [⟨n, none⟩])).take size) init) size := by
  refine (C83_exact_partial h).2.2 fun i x hx e => ?_
  rw [List.getElem?_take] at e
  split at e
  · unfold content at e hi
    rw [List.flatMap_append, List.getElem?_append_right (by omega)] at e
    simp only [List.flatMap_cons, List.flatMap_nil, List.append_nil, Extent.bytes, List.getElem?_replicate] at e
    split at e
    · exact (Option.some.inj e).symm
    · cases e
  · cases e

/-! ### It cannot be noticed -/

theorem Spec.SameBut.range {lo hi : Nat} {b b' : Bytes} (h : SameBut lo hi b b') {i n : Nat} (hi' : i + n ≤ lo ∨ hi ≤ i) :
    (b.drop i).take n = (b'.drop i).take n := by
  apply List.ext_getElem?
  intro j
  rw [List.getElem?_take, List.getElem?_take]
  split
  · rw [List.getElem?_drop, List.getElem?_drop]
    exact h.2 _ (by omega)
  · rfl

theorem Spec.SameBut.readLE {lo hi : Nat} {b b' : Bytes} (h : SameBut lo hi b b') {i n : Nat}
    (hi' : i + n ≤ lo ∨ hi ≤ i) : readLE n b i = readLE n b' i := by
  unfold NT.readLE
  rw [h.range hi', h.1]

theorem Spec.SameBut.idxByte {lo hi : Nat} {b b' : Bytes} (h : SameBut lo hi b b') {i : Nat} (hi' : i < lo ∨ hi ≤ i) :
    idxByte b i = idxByte b' i := by
  unfold NT.idxByte
  rw [h.2 i hi']

theorem Spec.SameBut.getRange {lo hi : Nat} {b b' : Bytes} (h : SameBut lo hi b b') {i j : Nat} (hi' : j ≤ lo ∨ hi ≤ i) :
    getRange b i j = getRange b' i j := by
  unfold NT.getRange
  rw [h.1]
  split
  · rw [h.range (by omega)]
  · rfl

/-- The attribute with other bytes in its file record. -/
def Spec.withRecord (a : Attr) (b : Bytes) : Attr :=
  { a with file := { a.file with record := { a.file.record with data := b } } }

section
variable {a : Attr} {b : Bytes}

theorem withRecord_same {lo hi : Nat} (hs : SameBut (a.offset + lo) (a.offset + hi) a.recordData b) :
    (∀ {i n}, i + n ≤ lo ∨ hi ≤ i → readLE n a.recordData (a.offset + i) = readLE n b (a.offset + i)) ∧
    (∀ {i}, i < lo ∨ hi ≤ i → idxByte a.recordData (a.offset + i) = idxByte b (a.offset + i)) :=
  ⟨fun h => hs.readLE (by omega), fun h => hs.idxByte (by omega)⟩

theorem Attr.simpleValue_same (hnr : a.isResident = .ok false) (hnr' : (withRecord a b).isResident = .ok false)
    (hl : a.attributeLength = (withRecord a b).attributeLength)
    (ho : readLE 2 a.recordData (a.offset + 32) = readLE 2 b (a.offset + 32))
    (hz : readLE 8 a.recordData (a.offset + 48) = readLE 8 b (a.offset + 48))
    (hlen : a.recordData.length = b.length)
    (hr : ∀ x y, readLE 2 a.recordData (a.offset + 32) = .ok x →
      getRange a.recordData (a.offset + x) y = getRange b (a.offset + x) y) :
    a.simpleValue = (withRecord a b).simpleValue := by
  have e1 : a.nonResidentValueDataRunsOffset = (withRecord a b).nonResidentValueDataRunsOffset := by
    unfold Attr.nonResidentValueDataRunsOffset Attr.assertNonResident
    rw [hnr, hnr']
    exact congrArg _ (funext fun _ => ho)
  have e2 : a.nonResidentValueDataSize = (withRecord a b).nonResidentValueDataSize := by
    unfold Attr.nonResidentValueDataSize Attr.assertNonResident
    rw [hnr, hnr']
    exact congrArg _ (funext fun _ => hz)
  have e3 : a.nonResidentValueDataAndPosition = (withRecord a b).nonResidentValueDataAndPosition := by
    unfold Attr.nonResidentValueDataAndPosition
    rw [← e1, ← hl]
    unfold Attr.assertNonResident
    rw [hnr, hnr']
    cases ho' : a.nonResidentValueDataRunsOffset with
    | err e => rfl
    | panic e => rfl
    | diverge => rfl
    | ok x =>
      have hx : readLE 2 a.recordData (a.offset + 32) = .ok x := by
        unfold Attr.nonResidentValueDataRunsOffset Attr.assertNonResident at ho'
        rw [hnr] at ho'
        exact ho'
      cases a.attributeLength with
      | err e => rfl
      | panic e => rfl
      | diverge => rfl
      | ok y =>
        have := hr x (a.offset + y) hx
        simp only [Res.bind_ok]
        show (do
          let data ← Res.ofOption _ (getRange a.recordData (a.offset + x) (a.offset + y))
          pure (data, _) : Res (Bytes × Pos)) = _
        rw [this, hlen]
        rfl
  unfold Attr.simpleValue
  rw [hnr, hnr']
  show (do let v ← a.nonResidentValue; pure (SVal.nonRes v) : Res SVal) =
    (do let v ← (withRecord a b).nonResidentValue; pure (SVal.nonRes v) : Res SVal)
  have e4 : a.nonResidentValue = (withRecord a b).nonResidentValue := by
    unfold Attr.nonResidentValue
    rw [e3, e2]
    rfl
  rw [e4]

theorem Attr.name_same (ho : a.nameOffset = (withRecord a b).nameOffset)
    (hn : a.nameLength = (withRecord a b).nameLength) (hl : a.attributeLength = (withRecord a b).attributeLength)
    (hr : ∀ x n, a.nameOffset = .ok x → a.nameLength = .ok n → n ≠ 0 →
      ∀ y, getRange a.recordData (a.offset + x) y = getRange b (a.offset + x) y) :
    a.name = (withRecord a b).name := by
  have hv : a.validateNameSizes = (withRecord a b).validateNameSizes := by
    unfold Attr.validateNameSizes
    rw [ho, hl, hn]
    rfl
  unfold Attr.name
  rw [← ho, ← hn, ← hv]
  cases ho' : a.nameOffset with
  | err e => rfl
  | panic e => rfl
  | diverge => rfl
  | ok x =>
    cases hn' : a.nameLength with
    | err e => rfl
    | panic e => rfl
    | diverge => rfl
    | ok n =>
      simp only [Res.bind_ok]
      split
      · rfl
      · rename_i hz
        have := hr x n ho' hn' (fun h => hz (.inr h)) (a.offset + x + n)
        show (do a.validateNameSizes; idxRange a.recordData _ _ : Res Bytes) =
          (do a.validateNameSizes; idxRange b _ _ : Res Bytes)
        unfold idxRange
        rw [this]
        rfl

end

/-- Fields of the header of a non-resident attribute that the library does not use: flags, first and last cluster,
compression unit and allocated size, initialised size. Other bytes there change nothing but the flags reported. -/
theorem Attr.unused {a : Attr} {b : Bytes} {lo hi : Nat}
    (hfield : 12 ≤ lo ∧ hi ≤ 14 ∨ 16 ≤ lo ∧ hi ≤ 32 ∨ 34 ≤ lo ∧ hi ≤ 48 ∨ 56 ≤ lo ∧ hi ≤ 64)
    (hs : SameBut (a.offset + lo) (a.offset + hi) a.recordData b)
    (hh : a.offset + 64 ≤ a.recordData.length) (hnr : field a.recordData (a.offset + 8) 1 ≠ 0)
    (hruns : 64 ≤ field a.recordData (a.offset + 32) 2)
    (hname : field a.recordData (a.offset + 9) 1 = 0 ∨ 64 ≤ field a.recordData (a.offset + 10) 2) :
    a.attributeLength = (withRecord a b).attributeLength ∧
    a.inst = (withRecord a b).inst ∧ a.isResident = (withRecord a b).isResident ∧
    a.name = (withRecord a b).name ∧ a.ty = (withRecord a b).ty ∧ a.position = (withRecord a b).position ∧
    a.valueLength = (withRecord a b).valueLength ∧ (∀ d, a.value d = (withRecord a b).value d) ∧
    (∀ d, a.attributeList d = (withRecord a b).attributeList d) ∧
    (∀ d, a.indexAllocation d = (withRecord a b).indexAllocation d) ∧
    (∀ (α : Type) (S : Structured α) d, a.structuredValue S d = (withRecord a b).structuredValue S d) ∧
    ∀ (α : Type) (S : Structured α), a.residentStructuredValue S = (withRecord a b).residentStructuredValue S := by
  obtain ⟨hle, hb⟩ := withRecord_same hs
  have e1 : a.attributeLength = (withRecord a b).attributeLength := hle (i := 4) (n := 4) (by omega)
  have e3 : a.inst = (withRecord a b).inst := hle (i := 14) (n := 2) (by omega)
  have e4 : a.isResident = (withRecord a b).isResident := by
    have : idxByte a.recordData (a.offset + 8) = idxByte b (a.offset + 8) := hb (by omega)
    unfold Attr.isResident
    rw [this]
    rfl
  have e5 : a.nameOffset = (withRecord a b).nameOffset := hle (i := 10) (n := 2) (by omega)
  have e6 : a.nameLength = (withRecord a b).nameLength := by
    have : idxByte a.recordData (a.offset + 9) = idxByte b (a.offset + 9) := hb (by omega)
    unfold Attr.nameLength
    rw [this]
    rfl
  have e7 : a.ty = (withRecord a b).ty := by
    have : readLE 4 a.recordData a.offset = readLE 4 b a.offset := hle (i := 0) (n := 4) (by omega)
    unfold Attr.ty
    show (do let t ← readLE 4 a.recordData a.offset; _ : Res AttrType) = (do let t ← readLE 4 b a.offset; _ : Res AttrType)
    rw [this]
    rfl
  have hH : a.HeaderIn := Nat.le_trans (Nat.add_le_add_left (by decide) _) hh
  have hR : a.isResident = .ok false := by
    rw [Attr.isResident_eq hH]
    have : (field a.recordData (a.offset + 8) 1 == 0) = false := by simpa using hnr
    rw [this]
  have e8 : a.name = (withRecord a b).name := by
    refine Attr.name_same e5 e6 e1 fun x n hx hn hz y => ?_
    rcases hname with h | h
    · rw [Attr.nameLength_eq hH, h] at hn
      cases hn
      exact absurd rfl hz
    · rw [Attr.nameOffset_eq hH] at hx
      cases hx
      exact hs.getRange (by omega)
  have e9 : a.simpleValue = (withRecord a b).simpleValue := by
    refine Attr.simpleValue_same hR (e4 ▸ hR) e1 (hle (by omega)) (hle (by omega)) hs.1 fun x y hx => ?_
    have : x = field a.recordData (a.offset + 32) 2 := by
      unfold readLE at hx
      rw [if_pos (by omega)] at hx
      exact (Res.ok.inj hx).symm
    subst this
    exact hs.getRange (by omega)
  have e10 : a.nonResidentValueDataSize = (withRecord a b).nonResidentValueDataSize := by
    have : readLE 8 a.recordData (a.offset + 48) = readLE 8 b (a.offset + 48) := hle (by omega)
    unfold Attr.nonResidentValueDataSize Attr.assertNonResident
    rw [← e4, this]
    rfl
  have e11 : a.valueLength = (withRecord a b).valueLength := by
    unfold Attr.valueLength
    rw [← e4, hR, ← e10]
    rfl
  have e12 : a.value = (withRecord a b).value := by
    unfold Attr.value
    show (match a.list with | some l => _ | none => _ : StM Dev Val) = match a.list with | some l => _ | none => _
    cases a.list with
    | none => dsimp only; rw [e9]
    | some l => dsimp only; rw [e10, e3, e7]; rfl
  have e13 : ∀ t, a.ensureTy t = (withRecord a b).ensureTy t := by
    intro t
    unfold Attr.ensureTy
    rw [e7]
    rfl
  refine ⟨e1, e3, e4, e8, e7, rfl, e11, fun d => by rw [e12], fun d => ?_, fun d => ?_, fun α S d => ?_, fun α S => ?_⟩
  · unfold Attr.attributeList
    rw [e13, e12]
  · unfold Attr.indexAllocation
    rw [e13, e12]
  · unfold Attr.structuredValue
    rw [e13, e12]
  · unfold Attr.residentStructuredValue
    rw [e13, ← e4, hR]
    rfl

theorem Attr.flags_same {a : Attr} {b : Bytes} {lo hi : Nat} (hlo : 14 ≤ lo)
    (hs : SameBut (a.offset + lo) (a.offset + hi) a.recordData b) : a.flags = (withRecord a b).flags := by
  have : readLE 2 a.recordData (a.offset + 12) = readLE 2 b (a.offset + 12) := hs.readLE (by omega)
  unfold Attr.flags
  rw [this]
  rfl

/-- **C83**: two file records that differ only in the initialised size of a non-resident attribute cannot be told apart
through that attribute: all that the library tells about it, and its value, is the same. So a caller cannot correct the
error. The name and the runs follow the header, as they do on real volumes. -/
theorem C83_unnoticed {a : Attr} {b : Bytes} (hs : SameBut (a.offset + 56) (a.offset + 64) a.recordData b)
    (hh : a.offset + 64 ≤ a.recordData.length) (hnr : field a.recordData (a.offset + 8) 1 ≠ 0)
    (hruns : 64 ≤ field a.recordData (a.offset + 32) 2)
    (hname : field a.recordData (a.offset + 9) 1 = 0 ∨ 64 ≤ field a.recordData (a.offset + 10) 2) :
    a.attributeLength = (withRecord a b).attributeLength ∧ a.flags = (withRecord a b).flags ∧
    a.inst = (withRecord a b).inst ∧ a.isResident = (withRecord a b).isResident ∧
    a.name = (withRecord a b).name ∧ a.ty = (withRecord a b).ty ∧ a.position = (withRecord a b).position ∧
    a.valueLength = (withRecord a b).valueLength ∧ (∀ d, a.value d = (withRecord a b).value d) ∧
    (∀ d, a.attributeList d = (withRecord a b).attributeList d) ∧
    (∀ d, a.indexAllocation d = (withRecord a b).indexAllocation d) ∧
    (∀ (α : Type) (S : Structured α) d, a.structuredValue S d = (withRecord a b).structuredValue S d) ∧
    ∀ (α : Type) (S : Structured α), a.residentStructuredValue S = (withRecord a b).residentStructuredValue S := by
  have h := Attr.unused (.inr (.inr (.inr ⟨Nat.le_refl _, Nat.le_refl _⟩))) hs hh hnr hruns hname
  exact ⟨h.1, Attr.flags_same (by decide) hs, h.2⟩

/-! ### A file that was never written -/

/-- A file record of which only the attribute is given: two clusters of 4 bytes at cluster 1, 8 bytes long, 3 of them
initialised. -/
def exStaleRecord : Bytes :=
  [0x80, 0, 0, 0, 72, 0, 0, 0, 1, 0, 64, 0, 0, 0, 0, 0] ++ List.replicate 8 0 ++ [1, 0, 0, 0, 0, 0, 0, 0] ++
    [64, 0, 0, 0, 0, 0, 0, 0] ++ [8, 0, 0, 0, 0, 0, 0, 0] ++ [8, 0, 0, 0, 0, 0, 0, 0] ++ [3, 0, 0, 0, 0, 0, 0, 0] ++
    [0x11, 2, 1, 0, 0, 0, 0, 0]

def exStale : Attr := ⟨⟨⟨4, 512, 12, none, 1024, 0, none⟩, ⟨exStaleRecord, some 0⟩, 30⟩, 0, none⟩

/-- The clusters hold `abc` and then what was there before. -/
def exStaleImage : Bytes := [0, 0, 0, 0, 97, 98, 99, 83, 69, 67, 82, 69]

theorem exStale_stored : StoredAs 4 exStaleImage [0x11, 2, 1, 0, 0, 0, 0, 0] [⟨2, some 1⟩] where
  clusterPos := by decide
  enc := by
    refine .run 0 1 1 _ _ _ ?_ (.terminated _ [0, 0, 0, 0])
    simp [WidthsOk, FitsSigned]
  rep := by simp [Representable]
  nonZero := by simp [NonZero]
  inImage := by simp [InImage, exStaleImage]
  imgLt := by decide

theorem exStale_clusters : ClustersAt exStale exStaleImage [⟨2, some 1⟩] 8 3 where
  one := rfl
  header := by decide
  nonRes := by decide
  size := by decide
  init := by decide
  after := by decide
  order := by decide
  inside := by decide
  stored := by
    have e : ((exStale.recordData.drop (exStale.offset + field exStale.recordData (exStale.offset + 32) 2)).take
      (field exStale.recordData (exStale.offset + 4) 4 - field exStale.recordData (exStale.offset + 32) 2)) =
        [0x11, 2, 1, 0, 0, 0, 0, 0] := by decide
    rw [e]
    exact exStale_stored

/-- **C83 is violated.** The value of a concrete attribute with 3 initialised bytes of 8 reads as the 8 bytes of its
clusters, not as 3 bytes and 5 zeros. -/
theorem C83_negation : ClustersAt exStale exStaleImage [⟨2, some 1⟩] 8 3 ∧
    exStale.Opens exStaleImage [97, 98, 99, 83, 69, 67, 82, 69] 8 ∧
    ¬ exStale.Opens exStaleImage (initialised [97, 98, 99, 83, 69, 67, 82, 69] 3) 8 := by
  have h := exStale_clusters.opens
  have e : (content exStale.file.ntfs.clusterSize exStaleImage [⟨2, some 1⟩]).take 8 =
      [97, 98, 99, 83, 69, 67, 82, 69] := by decide
  rw [e] at h
  exact ⟨exStale_clusters, h, fun h' => absurd (h.unique h').1 (by decide)⟩

/-! ### Examples -/

/-- The same record with another initialised size meets the hypotheses of `C83_unnoticed`. -/
example (d : Dev) : exStale.value d =
    (withRecord exStale (exStaleRecord.take 56 ++ [8, 0, 0, 0, 0, 0, 0, 0] ++ exStaleRecord.drop 64)).value d := by
  refine (C83_unnoticed (a := exStale) ⟨by decide, fun i hi => ?_⟩ (by decide) (by decide) (by decide)
    (.inl (by decide))).2.2.2.2.2.2.2.2.1 d
  by_cases h : i < 72
  · have : ∀ j : Fin 72, (j.1 < 56 ∨ 64 ≤ j.1) → exStaleRecord[j.1]? =
        (exStaleRecord.take 56 ++ [8, 0, 0, 0, 0, 0, 0, 0] ++ exStaleRecord.drop 64)[j.1]? := by decide
    exact this ⟨i, h⟩ (by simpa [exStale] using hi)
  · have l1 : exStaleRecord.length = 72 := by decide
    have l2 : (exStaleRecord.take 56 ++ [8, 0, 0, 0, 0, 0, 0, 0] ++ exStaleRecord.drop 64).length = 72 := by decide
    show exStaleRecord[i]? = _
    rw [List.getElem?_eq_none (by omega), List.getElem?_eq_none (by omega)]

/-- One cluster of 4 bytes and one that is not stored; 8 bytes, 4 of them initialised. -/
def exHoleRecord : Bytes :=
  exStaleRecord.take 56 ++ [4, 0, 0, 0, 0, 0, 0, 0] ++ [0x11, 1, 1, 0x01, 1, 0, 0, 0]

def exHole : Attr := ⟨⟨⟨4, 512, 12, none, 1024, 0, none⟩, ⟨exHoleRecord, some 0⟩, 30⟩, 0, none⟩

theorem exHole_clusters : ClustersAt exHole exStaleImage ([⟨1, some 1⟩] ++ [⟨1, none⟩]) 8 4 where
  one := rfl
  header := by decide
  nonRes := by decide
  size := by decide
  init := by decide
  after := by decide
  order := by decide
  inside := by decide
  stored := by
    have e : ((exHole.recordData.drop (exHole.offset + field exHole.recordData (exHole.offset + 32) 2)).take
      (field exHole.recordData (exHole.offset + 4) 4 - field exHole.recordData (exHole.offset + 32) 2)) =
        [0x11, 1, 1, 0x01, 1, 0, 0, 0] := by decide
    rw [e]
    exact {
      clusterPos := by decide
      enc := by
        refine .run 0 1 1 ⟨1, some 1⟩ _ [0x01, 1, 0, 0, 0] ?_ (.run 1 1 0 ⟨1, none⟩ _ [0, 0, 0] ?_ (.terminated _ [0, 0]))
        · simp [WidthsOk, FitsSigned]
        · simp [WidthsOk]
      rep := by simp [Representable, exHole]
      nonZero := by simp [NonZero]
      inImage := by simp [InImage, exHole, exStaleImage]
      imgLt := by decide }

/-- It reads as it should. -/
example : exHole.Opens exStaleImage [97, 98, 99, 83, 0, 0, 0, 0] 8 := C83_sparse exHole_clusters (by decide)

/-- The attribute of the negation with 8 initialised bytes. -/
def exWhole : Attr :=
  withRecord exStale (exStaleRecord.take 56 ++ [8, 0, 0, 0, 0, 0, 0, 0] ++ exStaleRecord.drop 64)

theorem exWhole_clusters : ClustersAt exWhole exStaleImage [⟨2, some 1⟩] 8 8 where
  one := rfl
  header := by decide
  nonRes := by decide
  size := by decide
  init := by decide
  after := by decide
  order := by decide
  inside := by decide
  stored := by
    have e : ((exWhole.recordData.drop (exWhole.offset + field exWhole.recordData (exWhole.offset + 32) 2)).take
      (field exWhole.recordData (exWhole.offset + 4) 4 - field exWhole.recordData (exWhole.offset + 32) 2)) =
        [0x11, 2, 1, 0, 0, 0, 0, 0] := by decide
    rw [e]
    exact exStale_stored

/-- It reads as it should, too. -/
example : exWhole.Opens exStaleImage [97, 98, 99, 83, 69, 67, 82, 69] 8 := C83_whole exWhole_clusters (by decide)

/-- With clusters that hold zeros beyond the initialised part, the value is right. -/
example : (∀ i x, 3 ≤ i → ([97, 98, 99, 0, 0] : Bytes)[i]? = some x → x = 0) :=
  (initialised_eq_iff _ _).1 (by decide)

end NT
