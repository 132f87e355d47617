import Verif.Model.Stream
import Verif.Model.Resident

namespace NT

/-- A reader with its device as one state: `read` into a buffer gives the count, the new state and
the new buffer contents (`src/traits.rs:16-18`, the required method `NtfsReadSeek::read`). -/
abbrev ReadFn (σ : Type) := σ → Bytes → Res Nat × σ × Bytes

/-- `src/traits.rs:27-36`: the loop of the provided method `read_exact`, with fuel, followed by the
check of lines 38-45. `done` are the buffer bytes already passed over by `buf = &mut buf[n..]`,
`buf` is the rest. -/
def readExactLoop {σ : Type} (read : ReadFn σ) : Nat → σ → Bytes → Bytes → Res Unit × σ × Bytes
  | 0, s, done, buf => (.diverge, s, done ++ buf)
  | fuel + 1, s, done, buf =>
    if buf.length = 0 then (.ok (), s, done ++ buf)
    else
      match read s buf with
      | (.ok n, s', buf') =>
        if n = 0 then (.err (.io .unexpectedEof), s', done ++ buf')
        else if n ≤ buf'.length then
          readExactLoop read fuel s' (done ++ buf'.take n) (buf'.drop n)
        else (.panic .slice, s', done ++ buf')
      | (.err e, s', buf') =>
        if e = .io .interrupted then readExactLoop read fuel s' done buf'
        else (.err e, s', done ++ buf')
      | (.panic p, s', buf') => (.panic p, s', done ++ buf')
      | (.diverge, s', buf') => (.diverge, s', done ++ buf')

/-- `NonRes.read` in the form `ReadFn`. -/
def NonRes.readFn : ReadFn (NonRes × Dev) := fun (v, d) buf =>
  let (r, v', buf', d') := v.read buf d
  (r, (v', d'), buf')

/-- `src/traits.rs:21-46`, `read_exact`, for a non-resident value. Every iteration delivers a byte or
uses up one entry of the device's schedule, so the fuel suffices (`C06_terminates`). -/
def NonRes.readExact (v : NonRes) (buf : Bytes) (d : Dev) : Res Unit × (NonRes × Dev) × Bytes :=
  readExactLoop NonRes.readFn (buf.length + d.sched.length + 1) (v, d) [] buf

/-- `ResVal.read` in the form `ReadFn`. -/
def ResVal.readFn : ReadFn ResVal := fun v buf => v.read buf

/-- `src/traits.rs:21-46`, `read_exact`, for a resident value. Every iteration delivers a byte, so the
fuel suffices. -/
def ResVal.readExact (v : ResVal) (buf : Bytes) : Res Unit × ResVal × Bytes :=
  readExactLoop ResVal.readFn (buf.length + 1) v [] buf

end NT
