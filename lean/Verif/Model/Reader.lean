import Verif.Model.SectorReader
import Verif.Model.Prog
import Verif.Model.Boot
import Verif.Model.DataRuns

/-!
The stack of readers that the example `ntfs-shell` reads through: a `std::io::BufReader` around a
`SectorReader` around the opened file.
-/

namespace NT

/-- `examples/ntfs-shell/main.rs:45-47`: the file, the `SectorReader` and the `BufReader`. `buf` is the part
of the buffer of the `BufReader` that has not been consumed. -/
structure BufSector where
  inner : SectorReader
  buf : Bytes
  deriving DecidableEq, Repr

namespace BufSector

/-- External: the capacity of a `std::io::BufReader` made with `BufReader::new`. -/
def capacity : Nat := 8192

/-- `examples/ntfs-shell/main.rs:45-47`. -/
def new (file : Dev) : Res BufSector := do
  let sr ← SectorReader.new file 4096
  pure { inner := sr, buf := [] }

/-- External: `BufReader::seek(SeekFrom::Start(p))` of the standard library: seeks the inner reader, then
throws the buffer away. -/
def seek (p : Nat) : StM BufSector Unit := fun s =>
  match SectorReader.seek (.start p) s.inner with
  | (.ok _, i) => (.ok (), { inner := i, buf := [] })
  | (.err e, i) => (.err e, { s with inner := i })
  | (.panic x, i) => (.panic x, { s with inner := i })
  | (.diverge, i) => (.diverge, { s with inner := i })

/-- External: `BufReader::fill_buf`: reads as much as fits into the buffer if it is empty. -/
def fill : StM BufSector Unit := fun s =>
  if s.buf = [] then
    match SectorReader.read capacity s.inner with
    | (.ok b, i) => (.ok (), { inner := i, buf := b })
    | (.err e, i) => (.err e, { inner := i, buf := [] })
    | (.panic x, i) => (.panic x, { inner := i, buf := [] })
    | (.diverge, i) => (.diverge, { inner := i, buf := [] })
  else (.ok (), s)

/-- External: `BufReader::read` into a buffer of `n` bytes: a large read goes to the inner reader directly
if the buffer is empty. -/
def read (n : Nat) : StM BufSector Bytes := fun s =>
  if s.buf = [] ∧ capacity ≤ n then
    ((SectorReader.read n s.inner).1, { inner := (SectorReader.read n s.inner).2, buf := [] })
  else
    match fill s with
    | (.ok _, s') => (.ok (s'.buf.take n), { s' with buf := s'.buf.drop n })
    | (.err e, s') => (.err e, s')
    | (.panic x, s') => (.panic x, s')
    | (.diverge, s') => (.diverge, s')

/-- External: the default `Read::read_exact` over `BufReader::read`, as in `Dev.readExactAux`. -/
def readExactLoop : Nat → Nat → Bytes → StM BufSector Bytes
  | 0, _, _ => fun s => (.diverge, s)
  | fuel + 1, n, acc => fun s =>
    if n = 0 then (.ok acc, s)
    else
      match read n s with
      | (.ok b, s') =>
        if b.length = 0 then (.err (.io .unexpectedEof), s')
        else readExactLoop fuel (n - b.length) (acc ++ b) s'
      | (.err (.io .interrupted), s') => readExactLoop fuel n acc s'
      | (.err e, s') => (.err e, s')
      | (.panic p, s') => (.panic p, s')
      | (.diverge, s') => (.diverge, s')

/-- External: `BufReader::read_exact`: from the buffer if it holds enough, else the default. A read of the
`SectorReader` is never answered with `Interrupted`, so every turn of the loop makes progress. -/
def readExact (n : Nat) : StM BufSector Bytes := fun s =>
  if n ≤ s.buf.length then (.ok (s.buf.take n), { s with buf := s.buf.drop n })
  else readExactLoop (n + 1) n [] s

/-- External: `BufReader::stream_position`: the position of the inner reader, which the `SectorReader` finds
with `seek(SeekFrom::Current(0))`, minus what is in the buffer. -/
def position : StM BufSector Nat := fun s =>
  match SectorReader.seek (.current 0) s.inner with
  | (.ok n, i) =>
    if s.buf.length ≤ n then (.ok (n - s.buf.length), { s with inner := i })
    else (.panic .unwrap, { s with inner := i })
  | (.err e, i) => (.err e, { s with inner := i })
  | (.panic x, i) => (.panic x, { s with inner := i })
  | (.diverge, i) => (.diverge, { s with inner := i })

/-- One request of the library to the stack, as in `Dev.ask`. -/
def ask (exact : Bool) (p n : Nat) : StM BufSector Bytes := do
  seek p
  if exact then readExact n else read n

end BufSector

/-- `src/ntfs.rs:41-74`, `Ntfs::new`, written for any reader: one request, for the boot sector.
Simplification: `read_le` reads the 512 bytes in one `read_exact` (binrw issues one per field,
and asks for the position in between; that the outcome is the same is `C61_pieces`). -/
def Ntfs.newProg : Prog (Res Ntfs) :=
  .ask true 0 512 fun r => .done (r >>= fun bytes => Ntfs.ofBoot (Boot.parse bytes))

/-- `src/attribute_value/non_resident.rs:488-511`, `NtfsDataRun::read`, written for any reader: at most one
request. -/
def DataRun.readProg (r : DataRun) (buf : Bytes) : Prog (Res Nat × DataRun × Bytes) :=
  if r.remainingLen = 0 then .done (.ok 0, r, buf)
  else
    let bytesToRead := min buf.length r.remainingLen
    match r.position with
    | some position =>
      if position + r.streamPosition < U64 then
        .ask false (position + r.streamPosition) bytesToRead fun
          | .ok b => .done (.ok b.length, { r with streamPosition := r.streamPosition + b.length },
              overwrite buf 0 b)
          | .err e => .done (.err e, r, buf)
          | .panic p => .done (.panic p, r, buf)
          | .diverge => .done (.diverge, r, buf)
      else .done (.panic .overflow, r, buf)
    | none =>
      .done (.ok bytesToRead, { r with streamPosition := r.streamPosition + bytesToRead },
        overwrite buf 0 (List.replicate bytesToRead 0))

end NT
