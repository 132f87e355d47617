import Verif.Model.Boot
import Verif.Model.FileOps
import Verif.Model.Index

/-! The example program `examples/ntfs-shell/main.rs`: splitting of the command line, `best_file_name`,
`cd`, `dir`, `get` and `parse_file_arg`.

Strings are lists of characters. What is printed is data. Not modelled: the texts of the messages, and
failures of writing to the host file of `get`. The other commands are in `ShellInfo.lean` and
`ShellAttr.lean`, the main loop is in `ShellMain.lean`. -/

namespace NT

/-- External: `char::is_whitespace` (the Unicode property White_Space). -/
def isWhitespace (c : Char) : Bool :=
  let n := c.toNat
  (9 ≤ n && n ≤ 13) || n == 0x20 || n == 0x85 || n == 0xA0 || n == 0x1680 ||
    (0x2000 ≤ n && n ≤ 0x200A) || n == 0x2028 || n == 0x2029 || n == 0x202F || n == 0x205F || n == 0x3000

/-- External: `str::trim_start`. -/
def trimStart (s : List Char) : List Char := s.dropWhile isWhitespace

/-- External: `str::trim`. -/
def trim (s : List Char) : List Char := (trimStart (trimStart s).reverse).reverse

/-- `examples/ntfs-shell/main.rs:78-81`: the command and its argument. -/
def splitCommand (input : List Char) : List Char × List Char :=
  let input := trim input
  (input.takeWhile (· ≠ ' '), trimStart (input.dropWhile (· ≠ ' ')))

/-- External: `str::encode_utf16`. -/
def utf16 : List Char → List Nat
  | [] => []
  | c :: s =>
    if c.toNat < 0x10000 then c.toNat :: utf16 s
    else (0xD800 + (c.toNat - 0x10000) / 0x400) :: (0xDC00 + (c.toNat - 0x10000) % 0x400) :: utf16 s

/-- External: `U16StrLe::to_string_lossy` of `nt-string`, i.e. `char::decode_utf16` with U+FFFD for
every unpaired surrogate. -/
def lossy : List Nat → List Char
  | [] => []
  | [u] => if 0xD800 ≤ u ∧ u < 0xE000 then ['�'] else [Char.ofNat u]
  | u :: v :: s =>
    if u < 0xD800 ∨ 0xE000 ≤ u then Char.ofNat u :: lossy (v :: s)
    else if u < 0xDC00 ∧ 0xDC00 ≤ v ∧ v < 0xE000 then
      Char.ofNat (0x10000 + (u - 0xD800) * 0x400 + (v - 0xDC00)) :: lossy s
    else '�' :: lossy (v :: s)

/-- External: `char::to_digit` for the radices 10 and 16. -/
def toDigit (radix : Nat) (c : Char) : Option Nat :=
  let n := c.toNat
  let x := if 48 ≤ n ∧ n ≤ 57 then some (n - 48)
    else if 97 ≤ n ∧ n ≤ 122 then some (n - 87)
    else if 65 ≤ n ∧ n ≤ 90 then some (n - 55)
    else none
  x.filter (· < radix)

/-- External: the digits of `u64::from_str_radix`, with the check for overflow. -/
def parseDigits (radix : Nat) : Nat → List Char → Option Nat
  | acc, [] => some acc
  | acc, c :: s =>
    match toDigit radix c with
    | none => none
    | some x => if acc * radix + x < U64 then parseDigits radix (acc * radix + x) s else none

/-- External: `u64::from_str_radix`: at least one digit, optionally after a `+`. -/
def fromStrRadix (radix : Nat) (s : List Char) : Option Nat :=
  match s with
  | [] => none
  | c :: t => if c = '+' then (if t = [] then none else parseDigits radix 0 t) else parseDigits radix 0 s

/-- External: `str::strip_prefix`. -/
def stripPrefix (p s : List Char) : Option (List Char) :=
  if s.take p.length = p then some (s.drop p.length) else none

/-- `examples/ntfs-shell/main.rs:637-640`: the record number after the slash. -/
def parseRecordNumber (s : List Char) : Option Nat :=
  match stripPrefix ['0', 'x'] s with
  | some h => fromStrRadix 16 h
  | none => fromStrRadix 10 s

/-- What a command reports itself, as opposed to an error of the library. -/
inductive ShellMsg
  | missingArgument                        -- main.rs:633
  | badRecordNumber (arg : List Char)      -- main.rs:646-649
  | noSuchFile (arg : List Char)           -- main.rs:665
  | noFileName (number : Nat)              -- main.rs:236-239
  | noSubdirectory (arg : List Char)       -- main.rs:269
  | notADirectory (arg : List Char)        -- main.rs:279
  | noDataAttribute (stream : List Char)   -- main.rs:515
  | outputExists (name : List Char)        -- main.rs:507
  deriving DecidableEq, Repr

/-- `examples/ntfs-shell/main.rs:24-32`, `CommandInfo`. The stack of directories has its last element
first. The device is passed along separately. -/
structure Shell where
  stack : List NFile
  path : List Char
  ntfs : Ntfs

/-- `examples/ntfs-shell/main.rs:45-57`: opening the file system. Simplified: the sector reader
(`SectorReader`, C44) and the `BufReader` around the image are replaced by the device itself. The
difference is the subject of C60 and C61 (`Model/Reader.lean`). -/
def Shell.start (fuel : Nat) : StM Dev Shell := do
  let ntfs ← Ntfs.new
  let ntfs ← ntfs.readUpcaseTable fuel
  let root ← ntfs.rootDirectory
  pure { stack := [root], path := [], ntfs := ntfs }

/-- `info.current_directory.last().unwrap()`, e.g. `examples/ntfs-shell/main.rs:260-263`. -/
def Shell.last (s : Shell) : Res NFile :=
  match s.stack with
  | f :: _ => .ok f
  | [] => .panic .unwrap

/-- The loop of `best_file_name`, `examples/ntfs-shell/main.rs:227-234`. -/
def bestLoop (f : NFile) (parent : Nat) (fuel : Nat) : List (Option Namespace) → StM Dev (Option FileName)
  | [] => pure none
  | ns :: rest => do
    match ← f.fileName ns (some parent) fuel with
    | some n => pure (some n)
    | none => bestLoop f parent fuel rest

/-- `examples/ntfs-shell/main.rs:210-240`, `best_file_name`. -/
def bestFileName (f : NFile) (parent : Nat) (fuel : Nat) : StM Dev (Except ShellMsg FileName) := do
  match ← bestLoop f parent fuel [some .win32, some .win32AndDos, none] with
  | some n => pure (.ok n)
  | none => pure (.error (.noFileName f.fileRecordNumber))

/-- `entry.key().expect(..)?`, e.g. `examples/ntfs-shell/main.rs:274-276`. -/
def IEntry.fileNameKey (e : IEntry) : Res FileName := do
  match ← e.key FileName.keyFromSlice with
  | some n => pure n
  | none => .panic .unwrap

/-- `examples/ntfs-shell/main.rs:627-668`, `parse_file_arg`. -/
def Shell.parseFileArg (s : Shell) (arg : List Char) (fuel : Nat) : StM Dev (Except ShellMsg NFile) :=
  if arg = [] then pure (.error .missingArgument)
  else
    match stripPrefix ['/'] arg with
    | some number =>
      match parseRecordNumber number with
      | some n => do
        let f ← s.ntfs.file n
        pure (.ok f)
      | none => pure (.error (.badRecordNumber number))
    | none => do
      let dir ← StM.lift s.last
      let ix ← dir.directoryIndex fuel
      match ← ix.findName s.ntfs (utf16 arg) fuel with
      | some e => do
        let f ← e.toFile s.ntfs
        pure (.ok f)
      | none => pure (.error (.noSuchFile arg))

/-- `rfind('\\').unwrap_or(0)` and `truncate`, `examples/ntfs-shell/main.rs:257-258`: what is before the
last backslash. -/
def cutLast (path : List Char) : List Char :=
  ((path.reverse.dropWhile (· ≠ '\\')).drop 1).reverse

/-- `examples/ntfs-shell/main.rs:289-292`: the new path string. -/
def extendPath (path name : List Char) : List Char :=
  (if path = [] then [] else path ++ ['\\']) ++ name

/-- `examples/ntfs-shell/main.rs:260-294`: `cd` into a subdirectory. -/
def Shell.cdInto (s : Shell) (arg : List Char) (fuel : Nat) : StM Dev (Option ShellMsg × Shell) := do
  let dir ← StM.lift s.last
  let ix ← dir.directoryIndex fuel
  match ← ix.findName s.ntfs (utf16 arg) fuel with
  | none => pure (some (.noSubdirectory arg), s)
  | some e => do
    let key ← StM.lift e.fileNameKey
    if !key.isDirectory then pure (some (.notADirectory arg), s)
    else do
      let f ← e.toFile s.ntfs
      match ← bestFileName f dir.fileRecordNumber fuel with
      | .error m => pure (some m, s)
      | .ok n => pure (none, { s with path := extendPath s.path (lossy (u16s n.name)), stack := f :: s.stack })

/-- `examples/ntfs-shell/main.rs:242-298`, `cd`: the message, if any, and the shell afterwards. On an
error of the library the shell is unchanged. -/
def Shell.cd (s : Shell) (arg : List Char) (fuel : Nat) : StM Dev (Option ShellMsg × Shell) :=
  if arg = [] then pure (none, s)
  else if arg = ['.', '.'] then
    if s.path = [] then pure (none, s)
    else pure (none, { s with stack := s.stack.drop 1, path := cutLast s.path })
  else s.cdInto arg fuel

/-- `examples/ntfs-shell/main.rs:67-102`, the main loop, for lines that are `cd` commands: an error is
printed and the loop goes on, a panic ends the program. -/
def Shell.cds (fuel : Nat) : List (List Char) → Shell → Dev → Res Shell × Dev
  | [], s, d => (.ok s, d)
  | arg :: args, s, d =>
    match s.cd arg fuel d with
    | (.ok (_, s'), d') => Shell.cds fuel args s' d'
    | (.err _, d') => Shell.cds fuel args s d'
    | (.panic p, d') => (.panic p, d')
    | (.diverge, d') => (.diverge, d')

/-- The loop of `dir`, `examples/ntfs-shell/main.rs:311-323`: for every entry whether it is a directory,
and its name. What was printed before an error is kept. -/
def dirLoop (ix : Index) (fuel : Nat) : Nat → List (Bool × Bytes) → IndexEntries × Dev →
    Res Unit × List (Bool × Bytes) × Dev
  | 0, out, (_, d) => (.diverge, out, d)
  | n + 1, out, s =>
    match IndexEntries.next ix fuel s with
    | (.ok none, (_, d)) => (.ok (), out, d)
    | (.ok (some e), s') =>
      match e.fileNameKey with
      | .ok k => dirLoop ix fuel n (out ++ [(k.isDirectory, k.name)]) s'
      | .err x => (.err x, out, s'.2)
      | .panic p => (.panic p, out, s'.2)
      | .diverge => (.diverge, out, s'.2)
    | (.err x, (_, d)) => (.err x, out, d)
    | (.panic p, (_, d)) => (.panic p, out, d)
    | (.diverge, (_, d)) => (.diverge, out, d)

/-- `examples/ntfs-shell/main.rs:300-326`, `dir`. -/
def Shell.dir (s : Shell) (fuel : Nat) (d : Dev) : Res Unit × List (Bool × Bytes) × Dev :=
  match (do let f ← StM.lift s.last; f.directoryIndex fuel : StM Dev Index) d with
  | (.ok ix, d') => dirLoop ix fuel fuel [] (IndexEntries.new ix, d')
  | (.err x, d') => (.err x, [], d')
  | (.panic p, d') => (.panic p, [], d')
  | (.diverge, d') => (.diverge, [], d')

/-- `examples/ntfs-shell/main.rs:492-495`: file name and stream name, separated by the first colon. -/
def splitStream (arg : List Char) : List Char × List Char :=
  (arg.takeWhile (· ≠ ':'), (arg.dropWhile (· ≠ ':')).drop 1)

/-- `examples/ntfs-shell/main.rs:499-503`: the name of the output file. -/
def outputName (file stream : List Char) : List Char :=
  if stream = [] then file else file ++ ['_'] ++ stream

/-- The loop of `get`, `examples/ntfs-shell/main.rs:530-537`, for any reader. `buf` is the buffer, `out`
what has been written so far. -/
def copyLoop {σ : Type} (read : ReadFn σ) : Nat → σ → Bytes → Bytes → Res Unit × σ × Bytes
  | 0, s, _, out => (.diverge, s, out)
  | fuel + 1, s, buf, out =>
    match read s buf with
    | (.ok n, s', buf') =>
      if n = 0 then (.ok (), s', out)
      else if n ≤ buf'.length then copyLoop read fuel s' buf' (out ++ buf'.take n)
      else (.panic .slice, s', out)
    | (.err e, s', _) => (.err e, s', out)
    | (.panic p, s', _) => (.panic p, s', out)
    | (.diverge, s', _) => (.diverge, s', out)

/-- `examples/ntfs-shell/main.rs:510-521`: the value to copy. -/
def Shell.openData (s : Shell) (file stream : List Char) (fuel : Nat) : StM Dev (Except ShellMsg Val) := do
  match ← s.parseFileArg file fuel with
  | .error m => pure (.error m)
  | .ok f =>
    match ← f.dataItem (utf16 stream) fuel with
    | none => pure (.error (.noDataAttribute stream))
    | some item => do
      let a ← StM.lift item.toAttribute
      let v ← a.value
      pure (.ok v)

/-- `examples/ntfs-shell/main.rs:487-540`, `get`: the outcome, the size that is announced before the copy starts
(main.rs:523-527), and the output file with its contents if one was created. `exists'` says whether the host
refuses to create a file of that name, e.g. because there is one (then it is not touched). -/
def Shell.getShown (s : Shell) (arg : List Char) (exists' : List Char → Bool) (fuel : Nat) (d : Dev) :
    Res (Except ShellMsg Nat) × Option Nat × Option (List Char × Bytes) × Dev :=
  let (file, stream) := splitStream arg
  let out := outputName file stream
  if exists' out then (.ok (.error (.outputExists out)), none, none, d)
  else
    match s.openData file stream fuel d with
    | (.ok (.error m), d') => (.ok (.error m), none, some (out, []), d')
    | (.ok (.ok v), d') =>
      match copyLoop Val.readFn fuel (v, d') (List.replicate 4096 0) [] with
      | (.ok (), (_, d2), b) => (.ok (.ok v.len), some v.len, some (out, b), d2)
      | (.err e, (_, d2), b) => (.err e, some v.len, some (out, b), d2)
      | (.panic p, (_, d2), b) => (.panic p, some v.len, some (out, b), d2)
      | (.diverge, (_, d2), b) => (.diverge, some v.len, some (out, b), d2)
    | (.err e, d') => (.err e, none, some (out, []), d')
    | (.panic p, d') => (.panic p, none, some (out, []), d')
    | (.diverge, d') => (.diverge, none, some (out, []), d')

/-- `examples/ntfs-shell/main.rs:487-540`, `get` as `Shell.getShown`, without the announcement. -/
def Shell.get (s : Shell) (arg : List Char) (exists' : List Char → Bool) (fuel : Nat) (d : Dev) :
    Res (Except ShellMsg Nat) × Option (List Char × Bytes) × Dev :=
  match s.getShown arg exists' fuel d with
  | (r, _, f, d') => (r, f, d')

end NT
