import Verif.Spec.AttrList

/-! Specification of the flattened attribute iteration: which entries of an attribute list are shown
as attributes of their own. -/

namespace NT.Spec

/-- The number of the file record that an entry refers to. -/
abbrev LEntry.record (e : LEntry) : Nat := e.ref % 2 ^ 48

/-- The entries name attributes with the same type and the same instance number. -/
def LEntry.Same (a b : LEntry) : Prop := a.ty = b.ty ∧ a.inst = b.inst

/-- What an entry leads to: a resident attribute, a non-resident one, or an error. -/
inductive Kind
  | resident
  | split
  | fails

/-- `Groups base K es gs`: in the attribute list `es` of file record number `base`, exactly the
entries in `gs` (each with the entries behind it) are shown. Entries of the base record are left out.
A resident attribute is shown for itself. A non-resident one is shown together with all following
entries of the same type and instance number, up to the first entry that is neither of this kind nor
in the base record. -/
inductive Groups (base : Nat) (K : LEntry → Kind → Prop) :
    List LEntry → List (LEntry × List LEntry) → Prop
  | nil : Groups base K [] []
  | own (e : LEntry) (es : List LEntry) (gs : List (LEntry × List LEntry)) :
      e.record = base → Groups base K es gs → Groups base K (e :: es) gs
  | resident (e : LEntry) (es : List LEntry) (gs : List (LEntry × List LEntry)) :
      e.record ≠ base → K e .resident → Groups base K es gs → Groups base K (e :: es) ((e, es) :: gs)
  | fails (e : LEntry) (es : List LEntry) (gs : List (LEntry × List LEntry)) :
      e.record ≠ base → K e .fails → Groups base K es gs → Groups base K (e :: es) ((e, es) :: gs)
  | split (e : LEntry) (conn rest : List LEntry) (gs : List (LEntry × List LEntry)) :
      e.record ≠ base → K e .split →
      (∀ c ∈ conn, c.record = base ∨ c.Same e) →
      (∀ x, rest.head? = some x → x.record ≠ base ∧ ¬ x.Same e) →
      Groups base K rest gs → Groups base K (e :: (conn ++ rest)) ((e, conn ++ rest) :: gs)

/-- The lists have the same length and corresponding elements are related. -/
inductive Each {α β : Type} (R : α → β → Prop) : List α → List β → Prop
  | nil : Each R [] []
  | cons {a : α} {b : β} {as : List α} {bs : List β} : R a b → Each R as bs → Each R (a :: as) (b :: bs)

end NT.Spec
