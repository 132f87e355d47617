import Verif.Model.Basic

/-! Specification of little-endian encoding: `leBytes k n` is the `k`-byte encoding of `n`. -/

namespace NT.Spec

/-- The `k` low-order bytes of `n`, least significant first. -/
def leBytes : Nat → Nat → Bytes
  | 0, _ => []
  | k + 1, n => UInt8.ofNat (n % 256) :: leBytes k (n / 256)

/-- The number stored little-endian in the `k` bytes at offset `off`. -/
def field (b : Bytes) (off k : Nat) : Nat := leNat ((b.drop off).take k)

end NT.Spec
