import Verif.Model.Types

namespace NT

/-- `src/attribute_value/mod.rs:164-196`, `seek_contiguous`: the result and the new
`*stream_position`. -/
def seekContiguous (streamPosition length : Nat) (pos : SeekFrom) : Res Nat × Nat :=
  match pos with
  | .start n => (.ok n, n)
  | .end_ n =>
    match (if 0 ≤ n then checkedAddU64 length n.toNat else checkedSub length (negAsU64 n)) with
    | some m => (.ok m, m)
    | none => (.err (.io .invalidInput), streamPosition)
  | .current n =>
    match (if 0 ≤ n then checkedAddU64 streamPosition n.toNat
           else checkedSub streamPosition (negAsU64 n)) with
    | some m => (.ok m, m)
    | none => (.err (.io .invalidInput), streamPosition)

end NT
