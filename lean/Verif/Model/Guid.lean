import Verif.Model.Structured

namespace NT

/-- The character of a hexadecimal digit, upper case. -/
def hexDigit (n : Nat) : Char := if n < 10 then Char.ofNat (48 + n) else Char.ofNat (55 + n)

/-- `core::fmt::UpperHex` for unsigned integers without width (standard library, trusted): no leading
zeros, at least one digit. -/
def upperHex (n : Nat) : List Char :=
  if n < 16 then [hexDigit n] else upperHex (n / 16) ++ [hexDigit (n % 16)]
termination_by n

/-- `format!("{:wX}", n)` (standard library, trusted): numbers are aligned to the right and filled with
blanks. -/
def fmtX (w n : Nat) : List Char :=
  List.replicate (w - (upperHex n).length) ' ' ++ upperHex n

/-- `src/guid.rs:20-38`, `Display for NtfsGuid`. The eight arguments `data4[0]` to `data4[7]` are
written as traversals of the array. -/
def Guid.display (g : Guid) : List Char :=
  fmtX 8 g.data1 ++ ['-'] ++ fmtX 4 g.data2 ++ ['-'] ++ fmtX 4 g.data3 ++ ['-'] ++
    (g.data4.take 2).flatMap (fun b => fmtX 2 b.toNat) ++ ['-'] ++
    (g.data4.drop 2).flatMap (fun b => fmtX 2 b.toNat)

end NT
