import Verif.Spec.Bytes

/-! Specification of the on-disk encoding of data runs and of the bytes they denote. -/

namespace NT.Spec

/-- A run of `count` clusters, stored at cluster `lcn` or sparse (`none`). -/
structure Extent where
  count : Nat
  lcn : Option Nat
  deriving DecidableEq, Repr

/-- The LCN that the next run's delta is relative to: sparse runs do not change it. -/
def Extent.lcnAfter (e : Extent) (prev : Nat) : Nat :=
  match e.lcn with
  | none => prev
  | some l => l

/-- `z` as a `k`-byte little-endian two's complement number. -/
def sleBytes (k : Nat) (z : Int) : Bytes := leBytes k (z % (256 : Int) ^ k).toNat

/-- The number that `b` stands for in little-endian two's complement. -/
def signedLE (b : Bytes) : Int :=
  if 2 * leNat b < 256 ^ b.length then (leNat b : Int) else (leNat b : Int) - 256 ^ b.length

/-- `z` fits into `k` bytes, signed. -/
def FitsSigned (k : Nat) (z : Int) : Prop := -(256 : Int) ^ k ≤ 2 * z ∧ 2 * z < (256 : Int) ^ k

/-- One run on disk: a header byte with the two field widths, the cluster count, and (unless sparse)
the distance of its LCN from the previous one. -/
def encodeRun (cb lb prev : Nat) (e : Extent) : Bytes :=
  match e.lcn with
  | none => UInt8.ofNat cb :: leBytes cb e.count
  | some l => UInt8.ofNat (16 * lb + cb) :: (leBytes cb e.count ++ sleBytes lb ((l : Int) - prev))

/-- The widths are legal (1..8 bytes) and can hold the numbers; a run is not empty. -/
def WidthsOk (cb lb prev : Nat) (e : Extent) : Prop :=
  1 ≤ cb ∧ cb ≤ 8 ∧ 0 < e.count ∧ e.count < 256 ^ cb ∧
    match e.lcn with
    | none => True
    | some l => 1 ≤ lb ∧ lb ≤ 8 ∧ FitsSigned lb ((l : Int) - prev)

/-- `data` is an on-disk encoding of the extents: with any legal widths, ended by a zero byte and
arbitrary bytes, or by the end of the attribute. -/
inductive Encodes : Nat → List Extent → Bytes → Prop
  | atEnd (prev : Nat) : Encodes prev [] []
  | terminated (prev : Nat) (rest : Bytes) : Encodes prev [] (0 :: rest)
  | run (prev cb lb : Nat) (e : Extent) (es : List Extent) (rest : Bytes) :
      WidthsOk cb lb prev e → Encodes (e.lcnAfter prev) es rest →
      Encodes prev (e :: es) (encodeRun cb lb prev e ++ rest)

/-- The byte addresses and sizes are representable in 64 bits. -/
def Representable (cs : Nat) (e : Extent) : Prop :=
  e.count * cs < U64 ∧ ∀ l, e.lcn = some l → l * cs < U64

/-- No run starts at cluster 0, and no run starts at the same cluster as the one before it. -/
def NonZero : Nat → List Extent → Prop
  | _, [] => True
  | prev, e :: es => (∀ l, e.lcn = some l → l ≠ 0 ∧ l ≠ prev) ∧ NonZero (e.lcnAfter prev) es

/-- The bytes of one run; sparse runs read as zeros. -/
def Extent.bytes (cs : Nat) (img : Bytes) (e : Extent) : Bytes :=
  match e.lcn with
  | none => List.replicate (e.count * cs) 0
  | some l => (img.drop (l * cs)).take (e.count * cs)

/-- The bytes of all runs. -/
def content (cs : Nat) (img : Bytes) (es : List Extent) : Bytes := es.flatMap (Extent.bytes cs img)

/-- All runs that are stored lie inside the image. -/
def InImage (cs : Nat) (img : Bytes) (es : List Extent) : Prop :=
  ∀ e ∈ es, ∀ l, e.lcn = some l → l * cs + e.count * cs ≤ img.length

end NT.Spec
