import Verif.Model.Types

/-!
The block device: the reader `T: Read + Seek` that the caller passes to every operation. It is
external code, so its behaviour is a parameter: an image, a position, and a schedule that says how
each call answers (short reads, failures). Everything proved "for every `Dev`" holds for all of
these behaviours.
-/

namespace NT

/-- How one call of the device answers. -/
inductive Resp
  | chunk (k : Nat)      -- a read delivers at most `k + 1` bytes; a seek succeeds
  | fail (e : IoErr)     -- the call fails with this error; the position does not change
  deriving DecidableEq, Repr

/-- External: the reader passed by the caller (`T: Read + Seek`). With an empty schedule every call
succeeds and delivers as much as possible. -/
structure Dev where
  img : Bytes
  pos : Nat
  sched : List Resp
  deriving DecidableEq, Repr

/-- No remaining call fails. -/
def Dev.NoFail (d : Dev) : Prop := ∀ r ∈ d.sched, ∀ e, r ≠ .fail e

/-- External: `Seek::seek(SeekFrom::Start(p))`. -/
def Dev.seekStart (p : Nat) : StM Dev Unit := fun d =>
  match d.sched with
  | .fail e :: s => (.err (.io e), { d with sched := s })
  | .chunk _ :: s => (.ok (), { d with pos := p, sched := s })
  | [] => (.ok (), { d with pos := p })

/-- External: `Read::read` into a buffer of `n` bytes; returns the delivered bytes. The contract of
`Read` is built in: at most `n` bytes, at least one byte if `n > 0` and the position is inside the
image. -/
def Dev.read (n : Nat) : StM Dev Bytes := fun d =>
  match d.sched with
  | .fail e :: s => (.err (.io e), { d with sched := s })
  | .chunk k :: s =>
    let b := (d.img.drop d.pos).take (min n (k + 1))
    (.ok b, { d with pos := d.pos + b.length, sched := s })
  | [] =>
    let b := (d.img.drop d.pos).take n
    (.ok b, { d with pos := d.pos + b.length })

/-- External: the default `Read::read_exact` of the standard library on the device: repeats `read`,
retries `Interrupted`, fails with `UnexpectedEof` on an empty answer. -/
def Dev.readExactAux : Nat → Nat → Bytes → StM Dev Bytes
  | 0, _, _ => fun d => (.diverge, d)
  | fuel + 1, n, acc => fun d =>
    if n = 0 then (.ok acc, d)
    else
      match Dev.read n d with
      | (.ok b, d') =>
        if b.length = 0 then (.err (.io .unexpectedEof), d')
        else Dev.readExactAux fuel (n - b.length) (acc ++ b) d'
      | (.err (.io .interrupted), d') => Dev.readExactAux fuel n acc d'
      | (.err e, d') => (.err e, d')
      | (.panic p, d') => (.panic p, d')
      | (.diverge, d') => (.diverge, d')

/-- External: `Read::read_exact` for `n` bytes. The fuel always suffices (`Dev.readExact_ne_diverge`
in `Verif/Lemmas/Dev.lean`). -/
def Dev.readExact (n : Nat) : StM Dev Bytes := fun d =>
  Dev.readExactAux (n + d.sched.length + 1) n [] d

end NT
