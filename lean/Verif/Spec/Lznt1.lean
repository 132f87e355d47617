import Verif.Spec.DataRuns

/-! Specification of compressed values: the format LZNT1, and compression units. Nothing in the library corresponds to it. -/

namespace NT.Spec

/-- `n` bytes, each copied from the place `dist` bytes before. -/
def lzCopy : Nat → Nat → Bytes → Bytes
  | 0, _, out => out
  | n + 1, dist, out =>
    match (if dist ≤ out.length then out[out.length - dist]? else none) with
    | some b => lzCopy n dist (out ++ [b])
    | none => out

/-- The number of bits by which the length of a copy is shorter than 12 bits, when `n` bytes have been decompressed. -/
def lzShift (n : Nat) : Nat := Nat.log2 (n - 1) - 3

/-- The bytes of a compressed chunk. `k` flags are left in `f`; a flag that is set announces a copy (distance and length
in two bytes), one that is not set announces a byte. -/
def lzChunk : Nat → Nat → Bytes → Bytes → Bytes
  | _, _, [], out => out
  | 0, _, f :: rest, out => lzChunk 8 f.toNat rest out
  | k + 1, f, b :: rest, out =>
    if f % 2 = 0 then lzChunk k (f / 2) rest (out ++ [b])
    else
      match rest with
      | [] => out
      | c :: rest =>
        let t := b.toNat + 256 * c.toNat
        let w := 2 ^ (12 - lzShift out.length)
        lzChunk k (f / 2) rest (lzCopy (t % w + 3) (t / w + 1) out)

/-- The decompressed bytes of at most `n` chunks: a header with the length and a bit that says whether the chunk is
compressed, then its bytes; a header of zero ends them. -/
def lznt1 : Nat → Bytes → Bytes
  | n + 1, a :: b :: rest =>
    let h := a.toNat + 256 * b.toNat
    if h = 0 then []
    else
      let body := rest.take (h % 4096 + 1)
      (if 0x8000 ≤ h then lzChunk 0 0 body [] else body) ++ lznt1 n (rest.drop (h % 4096 + 1))
  | _, _ => []

/-- The clusters of the extents, one by one; `none` is a cluster that is not stored. -/
def clusters (es : List Extent) : List (Option Nat) :=
  es.flatMap fun e =>
    match e.lcn with
    | none => List.replicate e.count none
    | some l => (List.range e.count).map fun i => some (l + i)

/-- The bytes of one cluster. -/
def clusterBytes (cs : Nat) (img : Bytes) : Option Nat → Bytes
  | none => List.replicate cs 0
  | some l => (img.drop (l * cs)).take cs

/-- `b`, cut or filled with zeros to `n` bytes. -/
def fitted (n : Nat) (b : Bytes) : Bytes := b.take n ++ List.replicate (n - b.length) 0

/-- The unit has clusters that are stored and others that are not. -/
def Mixed (u : List (Option Nat)) : Prop := (∃ l, some l ∈ u) ∧ none ∈ u

instance (u : List (Option Nat)) : Decidable (Mixed u) :=
  decidable_of_iff ((u.any Option.isSome && u.contains none) = true) (by
    unfold Mixed
    simp only [Bool.and_eq_true, List.any_eq_true, List.contains_iff_mem, Option.isSome_iff_exists]
    constructor
    · rintro ⟨⟨x, h, l, rfl⟩, h2⟩
      exact ⟨⟨l, h⟩, h2⟩
    · rintro ⟨⟨l, h⟩, h2⟩
      exact ⟨⟨_, h, l, rfl⟩, h2⟩)

/-- The bytes of a compression unit. If some of its clusters are not stored, those that are hold compressed data. -/
def unitBytes (cs : Nat) (img : Bytes) (u : List (Option Nat)) : Bytes :=
  if Mixed u then
    fitted (u.length * cs) (lznt1 (u.length * cs) ((u.takeWhile Option.isSome).flatMap (clusterBytes cs img)))
  else u.flatMap (clusterBytes cs img)

/-- A list in pieces of `n` elements. -/
inductive Pieces {α : Type} (n : Nat) : List α → List (List α) → Prop
  | nil : Pieces n [] []
  | last (l : List α) : l ≠ [] → l.length ≤ n → Pieces n l [l]
  | cons (l rest : List α) (ps : List (List α)) : l.length = n → rest ≠ [] → Pieces n rest ps → Pieces n (l ++ rest) (l :: ps)

end NT.Spec
