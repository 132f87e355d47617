import Verif.Spec.Seek

/-! Specification: an in-memory file with a cursor, as in `std::io::Cursor`. -/

namespace NT.Spec

/-- An in-memory file: its contents, the length that `SeekFrom::End` refers to, and the cursor. -/
structure Flat where
  content : Bytes
  len : Nat
  pos : Nat
  deriving DecidableEq, Repr

/-- One operation a user performs on a value. -/
inductive Op
  | read (buf : Bytes)      -- read into a buffer with these previous contents
  | seek (s : SeekFrom)
  deriving DecidableEq, Repr

/-- The arguments are representable in the Rust types. -/
def Op.InRange : Op → Prop
  | .read buf => buf.length < U64
  | .seek s => s.InRange

instance (o : Op) : Decidable o.InRange := by
  cases o <;> simp only [Op.InRange] <;> infer_instance

/-- What the user observes: the returned number or error, and the buffer afterwards. -/
structure Out where
  result : Res Nat
  buf : Bytes
  deriving DecidableEq, Repr

/-- A read delivers the next bytes, as many as fit the buffer and exist; the rest of the buffer is
untouched. A seek goes to the exact target or fails with `InvalidInput` and changes nothing. -/
def Flat.step (f : Flat) : Op → Out × Flat
  | .read buf =>
    let got := (f.content.drop f.pos).take buf.length
    ({ result := .ok got.length, buf := got ++ buf.drop got.length },
      { f with pos := f.pos + got.length })
  | .seek s =>
    if validTarget (seekTarget f.pos f.len s) then
      ({ result := .ok (seekTarget f.pos f.len s).toNat, buf := [] },
        { f with pos := (seekTarget f.pos f.len s).toNat })
    else ({ result := .err (.io .invalidInput), buf := [] }, f)

/-- A whole history of operations. -/
def Flat.run (f : Flat) : List Op → List Out × Flat
  | [] => ([], f)
  | op :: ops =>
    let (o, f') := f.step op
    let (os, f'') := f'.run ops
    (o :: os, f'')

/-- A history over a failing device follows an in-memory file if every step either behaves as on the
in-memory file, or is a read that failed with one of the errors `E` after delivering `m` correct
bytes (fewer than requested and available), and then the cursor is `m` bytes further. The last argument is the final cursor. -/
inductive FollowsFile (E : IoErr → Prop) : Flat → List Op → List Out → Nat → Prop
  | nil (f : Flat) : FollowsFile E f [] [] f.pos
  | good (f : Flat) (op : Op) (ops : List Op) (os : List Out) (p : Nat) :
      FollowsFile E (f.step op).2 ops os p → FollowsFile E f (op :: ops) ((f.step op).1 :: os) p
  | failed (f : Flat) (buf : Bytes) (e : IoErr) (m : Nat) (ops : List Op) (os : List Out) (p : Nat) :
      E e → m < buf.length → m < (f.content.drop f.pos).length →
      FollowsFile E { f with pos := f.pos + m } ops os p →
      FollowsFile E f (.read buf :: ops)
        (⟨.err (.io e), (f.content.drop f.pos).take m ++ buf.drop m⟩ :: os) p

end NT.Spec
