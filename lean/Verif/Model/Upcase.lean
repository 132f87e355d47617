import Verif.Model.AttrList

namespace NT

/-- `src/ntfs.rs:165-169`, `upcase_table`: panics if no table has been read. -/
def Ntfs.upcase (n : Ntfs) : Res (List Nat) :=
  match n.upcaseTable with
  | some t => .ok t
  | none => .panic .unwrap

/-- `src/upcase_table.rs:79-81`, `u16_to_uppercase`: slice indexing. -/
def u16ToUppercase (table : List Nat) (c : Nat) : Res Nat :=
  match table[c]? with
  | some u => .ok u
  | none => .panic .slice

/-- `src/upcase_table.rs:119-143`: the loop of `upcase_cmp_iter`. -/
def upcaseCmpLoop (table : List Nat) : List Nat → List Nat → Res Ordering
  | a :: as, b :: bs => do
    let x ← u16ToUppercase table a
    let y ← u16ToUppercase table b
    if x ≠ y then pure (compare x y) else upcaseCmpLoop table as bs
  | _ :: _, [] => .ok .gt
  | [], _ :: _ => .ok .lt
  | [], [] => .ok .eq

/-- `src/upcase_table.rs:112-144`, `upcase_cmp_iter`, and the three implementations of `upcase_cmp`
at lines 94-110. Strings are their sequences of UTF-16 code units (`u16_iter` of `nt-string` and
`encode_utf16` of the standard library are trusted). -/
def upcaseCmp (n : Ntfs) (this other : List Nat) : Res Ordering := do
  let table ← n.upcase
  upcaseCmpLoop table this other

end NT
