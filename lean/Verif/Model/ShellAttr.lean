import Verif.Model.ShellInfo

/-! The commands `attr` and `attr_runs` of the example shell (`examples/ntfs-shell/main.rs`). What is printed
is a list of lines with the values in them; the table header and the text are in `Model/ShellText.lean`. -/

namespace NT

/-- What `attr` prints. `nested` is the choice of the prefix, `examples/ntfs-shell/main.rs:130-131` or
154-155. -/
inductive AttrLine
  /-- `examples/ntfs-shell/main.rs:177-187`. -/
  | attribute (nested : Bool) (inst : Nat) (ty : AttrType) (resident : Bool) (record : Nat) (start : Pos)
      (length : Nat) (name : List Char)
  /-- `examples/ntfs-shell/main.rs:195-202`. -/
  | run (nested : Bool) (index : Nat) (start : Pos) (length : Nat)
  deriving DecidableEq, Repr

/-- `examples/ntfs-shell/main.rs:193-203`: the loop over the data runs. -/
def attrRuns (nested : Bool) : Nat → Nat → DataRuns → Res Unit × List AttrLine
  | 0, _, _ => (.diverge, [])
  | n + 1, i, r =>
    match r.next with
    | (none, _) => (.ok (), [])
    | (some (.ok x), r') =>
      ((attrRuns nested n (i + 1) r').1,
        .run nested i x.dataPosition x.allocatedSize :: (attrRuns nested n (i + 1) r').2)
    | (some (.err e), _) => (.err e, [])
    | (some (.panic p), _) => (.panic p, [])
    | (some .diverge, _) => (.diverge, [])

/-- `examples/ntfs-shell/main.rs:177-182`: the line of an attribute. -/
def Attr.line (a : Attr) (record : Nat) (nested : Bool) : Res AttrLine := do
  let inst ← a.inst
  let t ← a.ty
  let resident ← a.isResident
  let length ← a.valueLength
  let name ← a.name
  pure (.attribute nested inst t resident record a.position length (lossy (u16s name)))

/-- `examples/ntfs-shell/main.rs:166-208`, `attr_print_attribute`. -/
def attrPrint (withRuns : Bool) (a : Attr) (record : Nat) (nested : Bool) (fuel : Nat) (d : Dev) :
    Res Unit × List AttrLine × Dev :=
  match a.line record nested with
  | .ok l =>
    if withRuns then
      match a.value d with
      | (.ok (.simple (.nonRes v)), d') =>
        ((attrRuns nested fuel 0 v.dataRuns).1, l :: (attrRuns nested fuel 0 v.dataRuns).2, d')
      | (.ok _, d') => (.ok (), [l], d')
      | (.err e, d') => (.err e, [l], d')
      | (.panic p, d') => (.panic p, [l], d')
      | (.diverge, d') => (.diverge, [l], d')
    else (.ok (), [l], d)
  | .err e => (.err e, [], d)
  | .panic p => (.panic p, [], d)
  | .diverge => (.diverge, [], d)

/-- `examples/ntfs-shell/main.rs:138-158`: the loop over the entries of the list. -/
def attrEntries (withRuns : Bool) (ntfs : Ntfs) (file : NFile) (fuel : Nat) :
    Nat → List AttrLine → AttrList × Dev → Res Unit × List AttrLine × Dev
  | 0, out, (_, d) => (.diverge, out, d)
  | n + 1, out, s =>
    match AttrList.next s with
    | (.ok none, (_, d)) => (.ok (), out, d)
    | (.ok (some e), (l, d)) =>
      if e.ref.fileRecordNumber = file.fileRecordNumber then attrEntries withRuns ntfs file fuel n out (l, d)
      else
        match (do
          let f ← e.toFile ntfs
          StM.lift (e.toAttribute f) : StM Dev Attr) d with
        | (.ok a, d1) =>
          match attrPrint withRuns a e.ref.fileRecordNumber true fuel d1 with
          | (.ok (), o, d2) => attrEntries withRuns ntfs file fuel n (out ++ o) (l, d2)
          | (.err x, o, d2) => (.err x, out ++ o, d2)
          | (.panic p, o, d2) => (.panic p, out ++ o, d2)
          | (.diverge, o, d2) => (.diverge, out ++ o, d2)
        | (.err x, d1) => (.err x, out, d1)
        | (.panic p, d1) => (.panic p, out, d1)
        | (.diverge, d1) => (.diverge, out, d1)
    | (.err x, (_, d)) => (.err x, out, d)
    | (.panic p, (_, d)) => (.panic p, out, d)
    | (.diverge, (_, d)) => (.diverge, out, d)

/-- `examples/ntfs-shell/main.rs:121-159`: one attribute of the file record. -/
def attrOwn (withRuns : Bool) (ntfs : Ntfs) (file : NFile) (fuel : Nat) (a : Attr) (out : List AttrLine) (d : Dev) :
    Res Unit × List AttrLine × Dev :=
  match a.ty with
  | .ok t =>
    match attrPrint withRuns a file.fileRecordNumber false fuel d with
    | (.ok (), o, d1) =>
      if t = .attributeList then
        match a.attributeList d1 with
        | (.ok l, d2) => attrEntries withRuns ntfs file fuel fuel (out ++ o) (l, d2)
        | (.err x, d2) => (.err x, out ++ o, d2)
        | (.panic p, d2) => (.panic p, out ++ o, d2)
        | (.diverge, d2) => (.diverge, out ++ o, d2)
      else (.ok (), out ++ o, d1)
    | (.err x, o, d1) => (.err x, out ++ o, d1)
    | (.panic p, o, d1) => (.panic p, out ++ o, d1)
    | (.diverge, o, d1) => (.diverge, out ++ o, d1)
  | .err e => (.err e, out, d)
  | .panic p => (.panic p, out, d)
  | .diverge => (.diverge, out, d)

/-- `examples/ntfs-shell/main.rs:119-160`: the loop over the attributes. -/
def attrLoop (withRuns : Bool) (ntfs : Ntfs) (file : NFile) (fuel : Nat) :
    Nat → List AttrLine → AttrsRaw → Dev → Res Unit × List AttrLine × Dev
  | 0, out, _, d => (.diverge, out, d)
  | n + 1, out, it, d =>
    match it.next with
    | (none, _) => (.ok (), out, d)
    | (some (.ok a), it') =>
      match attrOwn withRuns ntfs file fuel a out d with
      | (.ok (), out', d') => attrLoop withRuns ntfs file fuel n out' it' d'
      | r => r
    | (some (.err e), _) => (.err e, out, d)
    | (some (.panic p), _) => (.panic p, out, d)
    | (some .diverge, _) => (.diverge, out, d)

/-- `examples/ntfs-shell/main.rs:119-162`: `attr` and `attr_runs` of a file. -/
def NFile.attr (file : NFile) (withRuns : Bool) (ntfs : Ntfs) (fuel : Nat) (d : Dev) :
    Res Unit × List AttrLine × Dev :=
  match file.attributesRaw with
  | .ok it => attrLoop withRuns ntfs file fuel fuel [] it d
  | .err e => (.err e, [], d)
  | .panic p => (.panic p, [], d)
  | .diverge => (.diverge, [], d)

/-- `examples/ntfs-shell/main.rs:108-163`, `attr`. -/
def Shell.attr (s : Shell) (withRuns : Bool) (arg : List Char) (fuel : Nat) (d : Dev) :
    Res (Except ShellMsg Unit) × List AttrLine × Dev :=
  match s.parseFileArg arg fuel d with
  | (.ok (.error m), d') => (.ok (.error m), [], d')
  | (.ok (.ok f), d') =>
    match f.attr withRuns s.ntfs fuel d' with
    | (.ok (), l, d2) => (.ok (.ok ()), l, d2)
    | (.err e, l, d2) => (.err e, l, d2)
    | (.panic p, l, d2) => (.panic p, l, d2)
    | (.diverge, l, d2) => (.diverge, l, d2)
  | (.err e, d') => (.err e, [], d')
  | (.panic p, d') => (.panic p, [], d')
  | (.diverge, d') => (.diverge, [], d')

end NT
