import Verif.Model.AttrList

/-! Values attached to their reader (`NtfsAttributeValueAttached`, `NtfsNonResidentAttributeValueAttached`), the
conversions between `NtfsError` and `std::io::Error`, and the provided methods of `std::io::Read` and
`std::io::Seek` that such a value gets from the standard library. -/

namespace NT

/-- `std::io::Error` as far as it occurs here: one made by a reader or by the standard library, or an `NtfsError` put
into one of kind `Other` (`src/error.rs:255`). -/
inductive IoError
  | plain (e : IoErr)
  | boxed (e : Err)
  deriving DecidableEq, Repr

/-- `src/error.rs:249-257`, `From<NtfsError> for io::Error`. -/
def Err.toIo : Err → IoError
  | .io e => .plain e
  | e => .boxed e

/-- `src/error.rs:241-245`, `From<io::Error> for NtfsError`. Simplified: `Err.io` has no place for the `NtfsError`
inside the `io::Error`; what is left of it is its kind, `Other`. -/
def IoError.toErr : IoError → Err
  | .plain e => .io e
  | .boxed _ => .io (.other 0)

/-- External (`std::io::Error::is_interrupted`): the kind is `Interrupted`. -/
def IoError.isInterrupted : IoError → Bool
  | .plain .interrupted => true
  | _ => false

/-- The outcome of a function returning `io::Result<α>`. -/
inductive IoRes (α : Type) where
  | ok (a : α)
  | err (e : IoError)
  | panic (p : Panic)
  | diverge
  deriving DecidableEq, Repr

/-- `.map_err(io::Error::from)`, `src/attribute_value/mod.rs:151` and 160,
`src/attribute_value/non_resident.rs:247` and 256. -/
def Res.toIo {α : Type} : Res α → IoRes α
  | .ok a => .ok a
  | .err e => .err e.toIo
  | .panic p => .panic p
  | .diverge => .diverge

/-- `src/attribute_value/mod.rs:108-111`, `struct NtfsAttributeValueAttached`. The attached form of a non-resident
value, `src/attribute_value/non_resident.rs:204-207`, is the case `.simple (.nonRes _)`. -/
structure AttachedVal where
  fs : Dev
  value : Val

/-- `src/attribute_value/mod.rs:38-43` and 117-119, `attach` (`src/attribute_value/non_resident.rs:61-66` and
213-215). -/
def Val.attach (v : Val) (fs : Dev) : AttachedVal := { fs, value := v }

namespace AttachedVal

/-- `src/attribute_value/mod.rs:131-133`, `detach` (`src/attribute_value/non_resident.rs:227-229`); the reader was
only borrowed, so it is there as well. -/
def detach (a : AttachedVal) : Val × Dev := (a.value, a.fs)

/-- `src/attribute_value/mod.rs:141-143`, `len` (`src/attribute_value/non_resident.rs:237-239`). -/
def len (a : AttachedVal) : Nat := a.value.len

/-- `src/attribute_value/mod.rs:136-138`, `is_empty` (`src/attribute_value/non_resident.rs:232-234`). -/
def isEmpty (a : AttachedVal) : Bool := a.len == 0

/-- `src/attribute_value/mod.rs:126-128`, `data_position` (`src/attribute_value/non_resident.rs:222-224`). -/
def dataPosition (a : AttachedVal) : Pos := a.value.dataPosition

/-- `src/attribute_value/mod.rs:146-153`, `Read::read` (`src/attribute_value/non_resident.rs:242-249`). -/
def read (a : AttachedVal) (buf : Bytes) : IoRes Nat × AttachedVal × Bytes :=
  match a.value.read buf a.fs with
  | (r, v', buf', d') => (r.toIo, { fs := d', value := v' }, buf')

/-- `src/attribute_value/mod.rs:155-162`, `Seek::seek` (`src/attribute_value/non_resident.rs:251-258`). -/
def seek (a : AttachedVal) (pos : SeekFrom) : IoRes Nat × AttachedVal :=
  match a.value.seek pos a.fs with
  | (r, v', d') => (r.toIo, { fs := d', value := v' })

end AttachedVal

/-- External (`std::io::Read::read_exact`, provided method): the loop over the rest `buf` of the buffer; `done` is the
part that is filled already. With fuel. -/
def stdReadExact {σ : Type} (read : σ → Bytes → IoRes Nat × σ × Bytes) : Nat → σ → Bytes → Bytes →
    IoRes Unit × σ × Bytes
  | 0, s, done, buf => (.diverge, s, done ++ buf)
  | fuel + 1, s, done, buf =>
    if buf = [] then (.ok (), s, done)
    else
      match read s buf with
      | (.ok n, s', buf') =>
        if n = 0 then (.err (.plain .unexpectedEof), s', done ++ buf')
        else if n ≤ buf'.length then stdReadExact read fuel s' (done ++ buf'.take n) (buf'.drop n)
        else (.panic .slice, s', done ++ buf')
      | (.err e, s', buf') =>
        if e.isInterrupted then stdReadExact read fuel s' done buf' else (.err e, s', done ++ buf')
      | (.panic p, s', buf') => (.panic p, s', done ++ buf')
      | (.diverge, s', buf') => (.diverge, s', done ++ buf')

/-- External (`std::io::Read::read_to_end`, provided method): reads into spare space behind what is there already
(`out`), until a read gives 0. How much spare space there is, is a matter of the library; `space i` is the amount at
the `i`th call. With fuel. -/
def stdReadToEnd {σ : Type} (read : σ → Bytes → IoRes Nat × σ × Bytes) (space : Nat → Nat) : Nat → Nat → σ →
    Bytes → IoRes Unit × σ × Bytes
  | 0, _, s, out => (.diverge, s, out)
  | fuel + 1, i, s, out =>
    match read s (List.replicate (space i) 0) with
    | (.ok n, s', buf') =>
      if n = 0 then (.ok (), s', out)
      else if n ≤ buf'.length then stdReadToEnd read space fuel (i + 1) s' (out ++ buf'.take n)
      else (.panic .slice, s', out)
    | (.err e, s', _) => if e.isInterrupted then stdReadToEnd read space fuel (i + 1) s' out else (.err e, s', out)
    | (.panic p, s', _) => (.panic p, s', out)
    | (.diverge, s', _) => (.diverge, s', out)

namespace AttachedVal

/-- External: `Read::read_exact` of an attached value. Every round delivers a byte or uses up one entry of the device's
schedule, so the fuel suffices. -/
def readExact (a : AttachedVal) (buf : Bytes) : IoRes Unit × AttachedVal × Bytes :=
  stdReadExact read (buf.length + a.fs.sched.length + 1) a [] buf

/-- External: `Read::read_to_end` of an attached value into an empty vector. -/
def readToEnd (a : AttachedVal) (space : Nat → Nat) (fuel : Nat) : IoRes Unit × AttachedVal × Bytes :=
  stdReadToEnd read space fuel 0 a []

/-- External (`std::io::Seek::stream_position`, provided method): `self.seek(SeekFrom::Current(0))`. -/
def streamPosition (a : AttachedVal) : IoRes Nat × AttachedVal := a.seek (.current 0)

/-- External (`std::io::Seek::rewind`, provided method): `self.seek(SeekFrom::Start(0))`, without its result. -/
def rewind (a : AttachedVal) : IoRes Unit × AttachedVal :=
  match a.seek (.start 0) with
  | (.ok _, a') => (.ok (), a')
  | (.err e, a') => (.err e, a')
  | (.panic p, a') => (.panic p, a')
  | (.diverge, a') => (.diverge, a')

end AttachedVal

end NT
