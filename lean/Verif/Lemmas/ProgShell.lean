import Verif.Lemmas.Prog
import Verif.Model.ShellAttr

/-! The commands `fileinfo`, `fsinfo`, `attr` and `attr_runs` as programs of requests (see `Lemmas/Prog.lean`). -/

namespace NT

theorem fileinfoFilename_rep (a : Attr) : Rep mk3 (fun d => fileinfoFilename a d) := by
  unfold fileinfoFilename
  refine Rep.step (show RepD (do
    let n ← a.structuredValue FileName.structured
    let ns ← StM.lift n.namespace'
    pure (InfoLine.fileName (lossy (u16s n.name)) ns n.parent.fileRecordNumber) : StM Dev InfoLine) from
    .bind (Attr.structuredValue_rep FileName.repReads a) fun _ => .bind (.lift _) fun _ => .pure _) fun x => ?_
  cases x with
  | ok l => exact ⟨_, fun d d' _ _ h => by rw [h], .done (Res.ok (), [.head .fileName, l])⟩
  | err e => exact ⟨_, fun d d' _ _ h => by rw [h], .done (Res.err e, [.head .fileName])⟩
  | panic e => exact ⟨_, fun d d' _ _ h => by rw [h], .done (Res.panic e, [.head .fileName])⟩
  | diverge => exact ⟨_, fun d d' _ _ h => by rw [h], .done (Res.diverge, [.head .fileName])⟩

theorem fileinfoAttr_rep (a : Attr) : Rep mk3 (fun d => fileinfoAttr a d) := by
  unfold fileinfoAttr
  cases a.ty with
  | ok t =>
    cases t with
    | standardInformation => exact .done (fileinfoStd a)
    | fileName => exact fileinfoFilename_rep a
    | data => exact .done (fileinfoData a)
    | _ => exact .done (Res.ok (), [])
  | err e => exact .done (Res.ok (), [])
  | panic e => exact .done (Res.panic e, [])
  | diverge => exact .done (Res.diverge, [])

theorem fileinfoLoop_rep (n : Nat) (out : List InfoLine) (it : Attrs) :
    Rep mk3 (fun d => fileinfoLoop n out (it, d)) := by
  induction n generalizing out it with
  | zero => exact .done (Res.diverge, out)
  | succ n ih =>
    unfold fileinfoLoop
    refine Rep.step (Attrs.next_rep it) ?_
    rintro ⟨x, it'⟩
    cases x with
    | ok o =>
      cases o with
      | none => exact ⟨_, fun d d' _ _ h => by rw [h], .done (Res.ok (), out)⟩
      | some i =>
        refine ⟨_, fun d d' _ _ h => by rw [h], ?_⟩
        dsimp only
        cases i.toAttribute with
        | ok a =>
          dsimp only
          refine Rep.step (fileinfoAttr_rep a) ?_
          rintro ⟨x, l⟩
          cases x with
          | ok u => exact ⟨_, fun d d' _ _ h => by rw [h], ih (out ++ l) it'⟩
          | err e => exact ⟨_, fun d d' _ _ h => by rw [h], .done (Res.err e, out ++ l)⟩
          | panic e => exact ⟨_, fun d d' _ _ h => by rw [h], .done (Res.panic e, out ++ l)⟩
          | diverge => exact ⟨_, fun d d' _ _ h => by rw [h], .done (Res.diverge, out ++ l)⟩
        | err e => exact .done (Res.err e, _)
        | panic e => exact .done (Res.panic e, _)
        | diverge => exact .done (Res.diverge, _)
    | err e => exact ⟨_, fun d d' _ _ h => by rw [h], .done (Res.err e, out)⟩
    | panic e => exact ⟨_, fun d d' _ _ h => by rw [h], .done (Res.panic e, out)⟩
    | diverge => exact ⟨_, fun d d' _ _ h => by rw [h], .done (Res.diverge, out)⟩

theorem NFile.fileinfo_rep (f : NFile) (fuel : Nat) : Rep mk3 (fun d => f.fileinfo fuel d) := by
  unfold NFile.fileinfo
  generalize (do
    let l ← f.infoLine
    let it ← f.attributes
    pure (l, it) : Res (InfoLine × Attrs)) = q
  cases q with
  | ok p => exact fileinfoLoop_rep fuel [p.1] p.2
  | err e => exact .done (Res.err e, [])
  | panic e => exact .done (Res.panic e, [])
  | diverge => exact .done (Res.diverge, [])

theorem Shell.fileinfo_rep (s : Shell) (arg : List Char) (fuel : Nat) : Rep mk3 (fun d => s.fileinfo arg fuel d) := by
  unfold Shell.fileinfo
  refine Rep.step (Shell.parseFileArg_rep s arg fuel) fun x => ?_
  cases x with
  | ok o =>
    cases o with
    | error m => exact ⟨_, fun d d' _ _ h => by rw [h], .done (Res.ok (.error m), [])⟩
    | ok f =>
      refine ⟨_, fun d d' _ _ h => by rw [h], ?_⟩
      dsimp only
      refine Rep.step (f.fileinfo_rep fuel) ?_
      rintro ⟨x, l⟩
      cases x with
      | ok u => exact ⟨_, fun d d' _ _ h => by rw [h], .done (Res.ok (.ok ()), l)⟩
      | err e => exact ⟨_, fun d d' _ _ h => by rw [h], .done (Res.err e, l)⟩
      | panic e => exact ⟨_, fun d d' _ _ h => by rw [h], .done (Res.panic e, l)⟩
      | diverge => exact ⟨_, fun d d' _ _ h => by rw [h], .done (Res.diverge, l)⟩
  | err e => exact ⟨_, fun d d' _ _ h => by rw [h], .done (Res.err e, [])⟩
  | panic e => exact ⟨_, fun d d' _ _ h => by rw [h], .done (Res.panic e, [])⟩
  | diverge => exact ⟨_, fun d d' _ _ h => by rw [h], .done (Res.diverge, [])⟩

theorem Ntfs.fsinfo_rep (n : Ntfs) : Rep mk3 (fun d => n.fsinfo d) := by
  unfold Ntfs.fsinfo
  dsimp only
  refine Rep.step (Ntfs.volumeInfo_rep n) fun x => ?_
  cases x with
  | ok v =>
    refine ⟨_, fun d d' _ _ h => by rw [h], ?_⟩
    dsimp only
    refine Rep.step (Ntfs.volumeName_rep n) fun x => ?_
    cases x with
    | ok o =>
      cases o with
      | none => exact ⟨_, fun d d' _ _ h => by rw [h], .done (Res.ok (), _)⟩
      | some x => exact ⟨_, fun d d' _ _ h => by rw [h], .done (Res.ok (), _)⟩
    | err e => exact ⟨_, fun d d' _ _ h => by rw [h], .done (Res.ok (), _)⟩
    | panic e => exact ⟨_, fun d d' _ _ h => by rw [h], .done (Res.panic e, _)⟩
    | diverge => exact ⟨_, fun d d' _ _ h => by rw [h], .done (Res.diverge, _)⟩
  | err e => exact ⟨_, fun d d' _ _ h => by rw [h], .done (Res.err e, _)⟩
  | panic e => exact ⟨_, fun d d' _ _ h => by rw [h], .done (Res.panic e, _)⟩
  | diverge => exact ⟨_, fun d d' _ _ h => by rw [h], .done (Res.diverge, _)⟩

theorem attrPrint_rep (w : Bool) (a : Attr) (record : Nat) (nested : Bool) (fuel : Nat) :
    Rep mk3 (fun d => attrPrint w a record nested fuel d) := by
  unfold attrPrint
  cases a.line record nested with
  | ok l =>
    dsimp only
    refine .ite (fun _ => ?_) fun _ => .done (Res.ok (), [l])
    refine Rep.step (Attr.value_rep a) fun x => ?_
    cases x with
    | ok v =>
      match v with
      | .simple (.nonRes v) =>
        exact ⟨_, fun d d' _ _ h => by rw [h],
          .done ((attrRuns nested fuel 0 v.dataRuns).1, l :: (attrRuns nested fuel 0 v.dataRuns).2)⟩
      | .simple (.res v) => exact ⟨_, fun d d' _ _ h => by rw [h], .done (Res.ok (), [l])⟩
      | .list v => exact ⟨_, fun d d' _ _ h => by rw [h], .done (Res.ok (), [l])⟩
    | err e => exact ⟨_, fun d d' _ _ h => by rw [h], .done (Res.err e, [l])⟩
    | panic e => exact ⟨_, fun d d' _ _ h => by rw [h], .done (Res.panic e, [l])⟩
    | diverge => exact ⟨_, fun d d' _ _ h => by rw [h], .done (Res.diverge, [l])⟩
  | err e => exact .done (Res.err e, [])
  | panic e => exact .done (Res.panic e, [])
  | diverge => exact .done (Res.diverge, [])

theorem attrEntries_rep (w : Bool) (ntfs : Ntfs) (file : NFile) (fuel n : Nat) (out : List AttrLine) (l : AttrList) :
    Rep mk3 (fun d => attrEntries w ntfs file fuel n out (l, d)) := by
  induction n generalizing out l with
  | zero => exact .done (Res.diverge, out)
  | succ n ih =>
    unfold attrEntries
    refine Rep.step (AttrList.next_rep l) ?_
    rintro ⟨x, l'⟩
    cases x with
    | ok o =>
      cases o with
      | none => exact ⟨_, fun d d' _ _ h => by rw [h], .done (Res.ok (), out)⟩
      | some e =>
        refine ⟨_, fun d d' _ _ h => by rw [h], ?_⟩
        dsimp only
        refine .ite (fun _ => ih _ _) fun _ => ?_
        refine Rep.step (show RepD (do
          let f ← e.toFile ntfs
          StM.lift (e.toAttribute f) : StM Dev Attr) from .bind (Ntfs.file_rep _ _) fun _ => .lift _) fun x => ?_
        cases x with
        | ok a =>
          refine ⟨_, fun d d' _ _ h => by rw [h], ?_⟩
          dsimp only
          refine Rep.step (attrPrint_rep w a e.ref.fileRecordNumber true fuel) ?_
          rintro ⟨x, o⟩
          cases x with
          | ok u => exact ⟨_, fun d d' _ _ h => by rw [h], ih (out ++ o) l'⟩
          | err e => exact ⟨_, fun d d' _ _ h => by rw [h], .done (Res.err e, out ++ o)⟩
          | panic e => exact ⟨_, fun d d' _ _ h => by rw [h], .done (Res.panic e, out ++ o)⟩
          | diverge => exact ⟨_, fun d d' _ _ h => by rw [h], .done (Res.diverge, out ++ o)⟩
        | err e => exact ⟨_, fun d d' _ _ h => by rw [h], .done (Res.err e, out)⟩
        | panic e => exact ⟨_, fun d d' _ _ h => by rw [h], .done (Res.panic e, out)⟩
        | diverge => exact ⟨_, fun d d' _ _ h => by rw [h], .done (Res.diverge, out)⟩
    | err e => exact ⟨_, fun d d' _ _ h => by rw [h], .done (Res.err e, out)⟩
    | panic e => exact ⟨_, fun d d' _ _ h => by rw [h], .done (Res.panic e, out)⟩
    | diverge => exact ⟨_, fun d d' _ _ h => by rw [h], .done (Res.diverge, out)⟩

theorem attrOwn_rep (w : Bool) (ntfs : Ntfs) (file : NFile) (fuel : Nat) (a : Attr) (out : List AttrLine) :
    Rep mk3 (fun d => attrOwn w ntfs file fuel a out d) := by
  unfold attrOwn
  cases a.ty with
  | ok t =>
    dsimp only
    refine Rep.step (attrPrint_rep w a file.fileRecordNumber false fuel) ?_
    rintro ⟨x, o⟩
    cases x with
    | ok u =>
      refine ⟨_, fun d d' _ _ h => by rw [h], ?_⟩
      dsimp only
      refine .ite (fun _ => ?_) fun _ => .done (Res.ok (), out ++ o)
      refine Rep.step (Attr.attributeList_rep a) fun x => ?_
      cases x with
      | ok l => exact ⟨_, fun d d' _ _ h => by rw [h], attrEntries_rep w ntfs file fuel fuel (out ++ o) l⟩
      | err e => exact ⟨_, fun d d' _ _ h => by rw [h], .done (Res.err e, out ++ o)⟩
      | panic e => exact ⟨_, fun d d' _ _ h => by rw [h], .done (Res.panic e, out ++ o)⟩
      | diverge => exact ⟨_, fun d d' _ _ h => by rw [h], .done (Res.diverge, out ++ o)⟩
    | err e => exact ⟨_, fun d d' _ _ h => by rw [h], .done (Res.err e, out ++ o)⟩
    | panic e => exact ⟨_, fun d d' _ _ h => by rw [h], .done (Res.panic e, out ++ o)⟩
    | diverge => exact ⟨_, fun d d' _ _ h => by rw [h], .done (Res.diverge, out ++ o)⟩
  | err e => exact .done (Res.err e, out)
  | panic e => exact .done (Res.panic e, out)
  | diverge => exact .done (Res.diverge, out)

theorem attrLoop_rep (w : Bool) (ntfs : Ntfs) (file : NFile) (fuel n : Nat) (out : List AttrLine) (it : AttrsRaw) :
    Rep mk3 (fun d => attrLoop w ntfs file fuel n out it d) := by
  induction n generalizing out it with
  | zero => exact .done (Res.diverge, out)
  | succ n ih =>
    unfold attrLoop
    generalize it.next = q
    obtain ⟨x, it'⟩ := q
    cases x with
    | none => exact .done (Res.ok (), out)
    | some x =>
      cases x with
      | ok a =>
        dsimp only
        refine Rep.step (attrOwn_rep w ntfs file fuel a out) ?_
        rintro ⟨x, o⟩
        cases x with
        | ok u => exact ⟨_, fun d d' _ _ h => by rw [h], ih o it'⟩
        | err e => exact ⟨_, fun d d' _ _ h => by rw [h], .done (Res.err e, o)⟩
        | panic e => exact ⟨_, fun d d' _ _ h => by rw [h], .done (Res.panic e, o)⟩
        | diverge => exact ⟨_, fun d d' _ _ h => by rw [h], .done (Res.diverge, o)⟩
      | err e => exact .done (Res.err e, out)
      | panic e => exact .done (Res.panic e, out)
      | diverge => exact .done (Res.diverge, out)

theorem NFile.attr_rep (f : NFile) (w : Bool) (ntfs : Ntfs) (fuel : Nat) :
    Rep mk3 (fun d => f.attr w ntfs fuel d) := by
  unfold NFile.attr
  cases f.attributesRaw with
  | ok it => exact attrLoop_rep w ntfs f fuel fuel [] it
  | err e => exact .done (Res.err e, [])
  | panic e => exact .done (Res.panic e, [])
  | diverge => exact .done (Res.diverge, [])

theorem Shell.attr_rep (s : Shell) (w : Bool) (arg : List Char) (fuel : Nat) :
    Rep mk3 (fun d => s.attr w arg fuel d) := by
  unfold Shell.attr
  refine Rep.step (Shell.parseFileArg_rep s arg fuel) fun x => ?_
  cases x with
  | ok o =>
    cases o with
    | error m => exact ⟨_, fun d d' _ _ h => by rw [h], .done (Res.ok (.error m), [])⟩
    | ok f =>
      refine ⟨_, fun d d' _ _ h => by rw [h], ?_⟩
      dsimp only
      refine Rep.step (f.attr_rep w s.ntfs fuel) ?_
      rintro ⟨x, l⟩
      cases x with
      | ok u => exact ⟨_, fun d d' _ _ h => by rw [h], .done (Res.ok (.ok ()), l)⟩
      | err e => exact ⟨_, fun d d' _ _ h => by rw [h], .done (Res.err e, l)⟩
      | panic e => exact ⟨_, fun d d' _ _ h => by rw [h], .done (Res.panic e, l)⟩
      | diverge => exact ⟨_, fun d d' _ _ h => by rw [h], .done (Res.diverge, l)⟩
  | err e => exact ⟨_, fun d d' _ _ h => by rw [h], .done (Res.err e, [])⟩
  | panic e => exact ⟨_, fun d d' _ _ h => by rw [h], .done (Res.panic e, [])⟩
  | diverge => exact ⟨_, fun d d' _ _ h => by rw [h], .done (Res.diverge, [])⟩

end NT
