import Verif.Model.Dev

/-!
The library is generic in the reader `T: Read + Seek`; the functions of the model are written for the
reader `Dev`. A `Prog` is what the library is for every reader: it asks for bytes at a position and goes on
depending on the answer.
-/

namespace NT

/-- A computation that uses a reader only through requests: seek to the absolute position `p`, then `read`
(or `read_exact`) into a buffer of `n` bytes. These are the only uses of the reader in `/repo/src`:
`src/ntfs.rs:46-47` (seek to 0 and the boot sector), `src/file.rs:144-145` (seek to a file record and
`read_exact`) and `src/attribute_value/non_resident.rs:501-502` (seek into a data run and `read`). -/
inductive Prog (β : Type)
  | done (b : β)
  | ask (exact : Bool) (p n : Nat) (k : Res Bytes → Prog β)

/-- Runs the computation over a reader with the state `σ`; `h` answers one request. -/
def Prog.run {σ β : Type} (h : Bool → Nat → Nat → StM σ Bytes) : Prog β → σ → β × σ
  | .done b, s => (b, s)
  | .ask e p n k, s => (k (h e p n s).1).run h (h e p n s).2

/-- One computation after the other. -/
def Prog.bind {β γ : Type} : Prog β → (β → Prog γ) → Prog γ
  | .done b, f => f b
  | .ask e p n k, f => .ask e p n fun r => (k r).bind f

/-- One request to the reader `Dev`. -/
def Dev.ask (exact : Bool) (p n : Nat) : StM Dev Bytes := do
  Dev.seekStart p
  if exact then Dev.readExact n else Dev.read n

end NT
