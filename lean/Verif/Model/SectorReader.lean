import Verif.Model.Seek
import Verif.Model.Dev

/-!
The `SectorReader` of the example `ntfs-shell`, which wraps the reader of a raw partition.
-/

namespace NT

/-- One access of the `SectorReader` to its inner reader: `seek(SeekFrom::Start(position))`, or
`read_exact` of `length` bytes while the inner reader is at `position`. -/
inductive Access
  | seek (position : Nat)
  | readExact (position length : Nat)
  deriving DecidableEq, Repr

/-- `examples/ntfs-shell/sector_reader.rs:17-30`, `struct SectorReader`. Simplifications: `temp_buf` is
left out, it is overwritten before it is used; `trace` is not in the code, it records all accesses to
the inner reader. -/
structure SectorReader where
  inner : Dev
  sectorSize : Nat
  streamPosition : Nat
  trace : List Access
  deriving DecidableEq, Repr

namespace SectorReader

/-- `examples/ntfs-shell/sector_reader.rs:36-50`, `new`. `is_power_of_two` of a `usize`. -/
def new (inner : Dev) (sectorSize : Nat) : Res SectorReader :=
  if (List.range 64).any (fun k => 2 ^ k == sectorSize) then
    .ok { inner, sectorSize, streamPosition := 0, trace := [] }
  else .err (.io (.other 0))

/-- `examples/ntfs-shell/sector_reader.rs:52-54`. -/
def alignDown (s : SectorReader) (n : Nat) : Nat := n / s.sectorSize * s.sectorSize

/-- `examples/ntfs-shell/sector_reader.rs:56-58`, with the overflow check of the addition. -/
def alignUp (s : SectorReader) (n : Nat) : Res Nat :=
  if s.alignDown n + s.sectorSize < U64 then .ok (s.alignDown n + s.sectorSize) else .panic .overflow

/-- `examples/ntfs-shell/sector_reader.rs:65-85`, `read` into a buffer of `n` bytes: the bytes that are
delivered, always `n` of them. Simplification: the allocation of `temp_buf` never fails. -/
def read (n : Nat) : StM SectorReader Bytes := fun s =>
  let start := s.streamPosition - s.alignDown s.streamPosition
  if U64 ≤ start + n then (.panic .overflow, s)
  else
    match s.alignUp (start + n) with
    | .ok length =>
      let trace := s.trace ++ [.readExact s.inner.pos length]
      match Dev.readExact length s.inner with
      | (.ok b, inner) =>
        if U64 ≤ s.streamPosition + n then (.panic .overflow, { s with inner, trace })
        else
          match idxRange b start (start + n) with
          | .ok out => (.ok out, { s with inner, trace, streamPosition := s.streamPosition + n })
          | .err e => (.err e, { s with inner, trace })
          | .panic p => (.panic p, { s with inner, trace })
          | .diverge => (.diverge, { s with inner, trace })
      | (.err e, inner) => (.err e, { s with inner, trace })
      | (.panic p, inner) => (.panic p, { s with inner, trace })
      | (.diverge, inner) => (.diverge, { s with inner, trace })
    | .err e => (.err e, s)
    | .panic p => (.panic p, s)
    | .diverge => (.diverge, s)

/-- `examples/ntfs-shell/sector_reader.rs:93-110`, the position that is asked for: `none` for
`SeekFrom::End`, else the checked sum. -/
def target (s : SectorReader) : SeekFrom → Option (Option Nat)
  | .start n => some (some n)
  | .end_ _ => none
  | .current n =>
    some (if 0 ≤ n then checkedAddU64 s.streamPosition n.toNat
      else checkedSub s.streamPosition (negAsU64 n))

/-- `examples/ntfs-shell/sector_reader.rs:92-129`, `seek`. -/
def seek (pos : SeekFrom) : StM SectorReader Nat := fun s =>
  match s.target pos with
  | none => (.err (.io (.other 1)), s)
  | some none => (.err (.io .invalidInput), s)
  | some (some n) =>
    let trace := s.trace ++ [.seek (s.alignDown n)]
    match Dev.seekStart (s.alignDown n) s.inner with
    | (.ok _, inner) => (.ok n, { s with inner, trace, streamPosition := n })
    | (.err e, inner) => (.err e, { s with inner, trace })
    | (.panic p, inner) => (.panic p, { s with inner, trace })
    | (.diverge, inner) => (.diverge, { s with inner, trace })

/-- An operation of the caller. -/
inductive Op
  | read (n : Nat)
  | seek (pos : SeekFrom)

/-- The state after an operation, whatever its result. -/
def after (s : SectorReader) : Op → SectorReader
  | .read n => (read n s).2
  | .seek pos => (seek pos s).2

end SectorReader

end NT
