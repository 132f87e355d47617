import Verif.Props.C83_Initialised
import Verif.Spec.Lznt1

/-! C84: compressed values. The library does not decompress; whether it says so is the subject here. -/

namespace NT

namespace Spec

/-- The value of the attribute is compressed, in the units `us`. -/
structure CompressedAt (a : Attr) (img : Bytes) (es : List Extent) (size init : Nat) (us : List (List (Option Nat))) : Prop
    extends ClustersAt a img es size init where
  flag : field a.recordData (a.offset + 12) 2 % 2 = 1
  units : Pieces (2 ^ field a.recordData (a.offset + 34) 1) (clusters es) us

/-- The contents of a compressed value. -/
def decompressed (cs : Nat) (img : Bytes) (us : List (List (Option Nat))) (size : Nat) : Bytes :=
  (us.flatMap (unitBytes cs img)).take size

end Spec

open Spec

theorem Spec.Pieces.flatten {α : Type} {n : Nat} {l : List α} {ps : List (List α)} (h : Pieces n l ps) :
    ps.flatten = l := by
  induction h with
  | nil => rfl
  | last l => simp
  | cons l rest ps _ _ _ ih => rw [List.flatten_cons, ih]

theorem Spec.Extent.clusters_bytes (cs : Nat) (img : Bytes) (l : Nat) : ∀ n : Nat,
    ((List.range n).map fun i => some (l + i)).flatMap (clusterBytes cs img) = (img.drop (l * cs)).take (n * cs)
  | 0 => by simp
  | n + 1 => by
    rw [List.range_succ, List.map_append, List.flatMap_append, Extent.clusters_bytes cs img l n]
    simp only [List.map_cons, List.map_nil, List.flatMap_cons, List.flatMap_nil, List.append_nil, clusterBytes]
    rw [Nat.succ_mul, List.take_add, List.drop_drop, Nat.add_mul]

/-- The bytes of the extents are those of their clusters. -/
theorem Spec.content_clusters (cs : Nat) (img : Bytes) (es : List Extent) :
    content cs img es = (clusters es).flatMap (clusterBytes cs img) := by
  unfold content clusters
  rw [List.flatMap_assoc]
  congr 1
  funext e
  unfold Extent.bytes
  cases e.lcn with
  | some l => exact (Extent.clusters_bytes cs img l e.count).symm
  | none =>
    dsimp only
    induction e.count with
    | zero => simp
    | succ n ih =>
      rw [List.replicate_succ, List.flatMap_cons, ← ih, Nat.succ_mul, Nat.add_comm, ← List.replicate_append_replicate]
      rfl

/-- **C84, partial**: the exact law of the code. A compressed value reads as the bytes of its clusters, with zeros for
those that are not stored. That is right if and only if these are its contents.

Full claim: a compressed value reads as its contents, or is refused. It is false, see `C84_negation`. -/
theorem C84_exact_partial {a : Attr} {img : Bytes} {es : List Extent} {size init : Nat}
    {us : List (List (Option Nat))} (h : CompressedAt a img es size init us) :
    a.Opens img ((content a.file.ntfs.clusterSize img es).take size) size ∧
      (a.Opens img (decompressed a.file.ntfs.clusterSize img us size) size ↔
        (content a.file.ntfs.clusterSize img es).take size = decompressed a.file.ntfs.clusterSize img us size) :=
  ⟨h.opens, fun h' => (h.opens.unique h').1, fun e => e ▸ h.opens⟩

/-- **C84, partial**: a value that has the flag, but no unit of which is in fact compressed, reads as its contents.

Full claim: as for `C84_exact_partial`. -/
theorem C84_plain_partial {a : Attr} {img : Bytes} {es : List Extent} {size init : Nat}
    {us : List (List (Option Nat))} (h : CompressedAt a img es size init us) (hu : ∀ u ∈ us, ¬ Mixed u) :
    a.Opens img (decompressed a.file.ntfs.clusterSize img us size) size := by
  refine (C84_exact_partial h).2.2 ?_
  unfold decompressed
  rw [content_clusters, ← h.units.flatten]
  congr 1
  clear h
  induction us with
  | nil => rfl
  | cons u us ih =>
    rw [List.flatten_cons, List.flatMap_append, List.flatMap_cons, ih fun v hv => hu v (List.mem_cons_of_mem _ hv)]
    exact congrArg (· ++ _) (if_neg (hu u List.mem_cons_self)).symm

/-- **C84**: the flag is reported, so a caller can refuse compressed values itself. -/
theorem C84_reported {a : Attr} {img : Bytes} {es : List Extent} {size init : Nat}
    {us : List (List (Option Nat))} (h : CompressedAt a img es size init us) :
    ∃ x, a.flags = .ok x ∧ x % 2 = 1 := by
  have hh := h.header
  have e : readLE 2 a.recordData (a.offset + 12) = .ok (field a.recordData (a.offset + 12) 2) := by
    unfold readLE
    rw [if_pos (by omega)]
    rfl
  refine ⟨field a.recordData (a.offset + 12) 2 % 2 + 0x4000 * (field a.recordData (a.offset + 12) 2 / 0x4000), ?_, ?_⟩
  · unfold Attr.flags
    rw [e]
    rfl
  · have := h.flag
    omega

/-- **C84**: the flag makes no difference to anything else. Two file records that differ only in the flags of an
attribute (compressed, encrypted, sparse), and two that differ only in its compression unit and its allocated size, give
the same value and the same answers to all other questions. -/
theorem C84_ignored {a : Attr} {b : Bytes} {lo hi : Nat} (hf : lo = 12 ∧ hi = 14 ∨ lo = 34 ∧ hi = 48)
    (hs : SameBut (a.offset + lo) (a.offset + hi) a.recordData b)
    (hh : a.offset + 64 ≤ a.recordData.length) (hnr : field a.recordData (a.offset + 8) 1 ≠ 0)
    (hruns : 64 ≤ field a.recordData (a.offset + 32) 2)
    (hname : field a.recordData (a.offset + 9) 1 = 0 ∨ 64 ≤ field a.recordData (a.offset + 10) 2) :
    (lo = 34 → a.flags = (withRecord a b).flags) ∧ a.ty = (withRecord a b).ty ∧ a.name = (withRecord a b).name ∧
    a.valueLength = (withRecord a b).valueLength ∧ (∀ d, a.value d = (withRecord a b).value d) ∧
    ∀ (α : Type) (S : Structured α) d, a.structuredValue S d = (withRecord a b).structuredValue S d := by
  obtain ⟨_, _, _, h1, h2, _, h3, h4, _, _, h5, _⟩ := Attr.unused (by omega) hs hh hnr hruns hname
  exact ⟨fun h => Attr.flags_same (by omega) hs, h2, h1, h3, h4, h5⟩

/-! ### A compressed file -/

/-- A file record of which only the attribute is given: compressed in units of two clusters, 16 bytes long, one cluster of
8 bytes at cluster 1 and one that is not stored. -/
def exPackedRecord : Bytes :=
  [0x80, 0, 0, 0, 72, 0, 0, 0, 1, 0, 64, 0, 1, 0, 0, 0] ++ List.replicate 8 0 ++ [1, 0, 0, 0, 0, 0, 0, 0] ++
    [64, 0, 1, 0, 0, 0, 0, 0] ++ [16, 0, 0, 0, 0, 0, 0, 0] ++ [16, 0, 0, 0, 0, 0, 0, 0] ++ [16, 0, 0, 0, 0, 0, 0, 0] ++
    [0x11, 1, 1, 0x01, 1, 0, 0, 0]

def exPacked : Attr := ⟨⟨⟨8, 512, 16, none, 1024, 0, none⟩, ⟨exPackedRecord, some 0⟩, 30⟩, 0, none⟩

/-- The cluster holds one chunk: the byte `a`, and a copy of 15 bytes from one byte before. -/
def exPackedImage : Bytes := List.replicate 8 0 ++ [0x03, 0xB0, 0x02, 97, 0x0C, 0, 0, 0]

theorem exPacked_stored : StoredAs 8 exPackedImage [0x11, 1, 1, 0x01, 1, 0, 0, 0] [⟨1, some 1⟩, ⟨1, none⟩] where
  clusterPos := by decide
  enc := by
    refine .run 0 1 1 ⟨1, some 1⟩ _ [0x01, 1, 0, 0, 0] ?_ (.run 1 1 0 ⟨1, none⟩ _ [0, 0, 0] ?_ (.terminated _ [0, 0]))
    · simp [WidthsOk, FitsSigned]
    · simp [WidthsOk]
  rep := by simp [Representable]
  nonZero := by simp [NonZero]
  inImage := by simp [InImage, exPackedImage]
  imgLt := by decide

theorem exPacked_compressed : CompressedAt exPacked exPackedImage [⟨1, some 1⟩, ⟨1, none⟩] 16 16 [[some 1, none]] where
  one := rfl
  header := by decide
  nonRes := by decide
  size := by decide
  init := by decide
  after := by decide
  order := by decide
  inside := by decide
  stored := by
    have e : ((exPacked.recordData.drop (exPacked.offset + field exPacked.recordData (exPacked.offset + 32) 2)).take
      (field exPacked.recordData (exPacked.offset + 4) 4 - field exPacked.recordData (exPacked.offset + 32) 2)) =
        [0x11, 1, 1, 0x01, 1, 0, 0, 0] := by decide
    rw [e]
    exact exPacked_stored
  flag := by decide
  units := .last _ (List.cons_ne_nil _ _) (by decide)

/-- **C84 is violated.** A concrete compressed value stands for sixteen times the letter a. It is neither decompressed nor
refused: it reads as the compressed bytes and zeros. -/
theorem C84_negation : CompressedAt exPacked exPackedImage [⟨1, some 1⟩, ⟨1, none⟩] 16 16 [[some 1, none]] ∧
    decompressed 8 exPackedImage [[some 1, none]] 16 = List.replicate 16 97 ∧
    exPacked.Opens exPackedImage ([0x03, 0xB0, 0x02, 97, 0x0C, 0, 0, 0] ++ List.replicate 8 0) 16 ∧
    ¬ exPacked.Opens exPackedImage (List.replicate 16 97) 16 := by
  have h := exPacked_compressed.opens
  have e : (content exPacked.file.ntfs.clusterSize exPackedImage [⟨1, some 1⟩, ⟨1, none⟩]).take 16 =
      [0x03, 0xB0, 0x02, 97, 0x0C, 0, 0, 0] ++ List.replicate 8 0 := by decide
  rw [e] at h
  exact ⟨exPacked_compressed, by decide +kernel, h, fun h' => absurd (h.unique h').1 (by decide)⟩

/-! ### Examples -/

/-- A chunk that is not compressed, and one with a longer distance. -/
example : lznt1 10 [2, 0x30, 1, 2, 3, 0, 0, 9] = [1, 2, 3] := by decide
example : lznt1 20 [7, 0xB0, 0x18, 1, 2, 3, 3, 0x20, 1, 0x50] = [1, 2, 3, 1, 2, 3, 1, 2, 3, 1, 2, 3, 1] := by decide +kernel

/-- The attribute of C83 with the flag: two clusters in a unit of one, both stored. It reads as its contents. -/
def exPlain : Attr :=
  withRecord exWhole (exStaleRecord.take 12 ++ [1] ++ (exStaleRecord.drop 13).take 43 ++
    [8, 0, 0, 0, 0, 0, 0, 0] ++ exStaleRecord.drop 64)

theorem exPlain_compressed : CompressedAt exPlain exStaleImage [⟨2, some 1⟩] 8 8 [[some 1], [some 2]] where
  one := rfl
  header := by decide
  nonRes := by decide
  size := by decide
  init := by decide
  after := by decide
  order := by decide
  inside := by decide
  stored := by
    have e : ((exPlain.recordData.drop (exPlain.offset + field exPlain.recordData (exPlain.offset + 32) 2)).take
      (field exPlain.recordData (exPlain.offset + 4) 4 - field exPlain.recordData (exPlain.offset + 32) 2)) =
        [0x11, 2, 1, 0, 0, 0, 0, 0] := by decide
    rw [e]
    exact exStale_stored
  flag := by decide
  units := .cons [some 1] [some 2] [[some 2]] (by decide) (List.cons_ne_nil _ _)
    (.last _ (List.cons_ne_nil _ _) (by decide))

example : exPlain.Opens exStaleImage [97, 98, 99, 83, 69, 67, 82, 69] 8 :=
  C84_plain_partial exPlain_compressed (by decide)

/-- The flags of the attribute of the negation can be removed without any effect on the value. -/
example (d : Dev) : exPacked.value d = (withRecord exPacked (exPackedRecord.take 12 ++ [0] ++ exPackedRecord.drop 13)).value d := by
  refine (C84_ignored (a := exPacked) (.inl ⟨rfl, rfl⟩) ⟨by decide, fun i hi => ?_⟩ (by decide) (by decide) (by decide)
    (.inl (by decide))).2.2.2.2.1 d
  by_cases h : i < 72
  · have : ∀ j : Fin 72, (j.1 < 12 ∨ 14 ≤ j.1) → exPackedRecord[j.1]? =
        (exPackedRecord.take 12 ++ [0] ++ exPackedRecord.drop 13)[j.1]? := by decide
    exact this ⟨i, h⟩ (by simpa [exPacked] using hi)
  · have l1 : exPackedRecord.length = 72 := by decide
    have l2 : (exPackedRecord.take 12 ++ [0] ++ exPackedRecord.drop 13).length = 72 := by decide
    show exPackedRecord[i]? = _
    rw [List.getElem?_eq_none (by omega), List.getElem?_eq_none (by omega)]

end NT
