import Verif.Lemmas.LocalIndex
import Verif.Model.ShellMain

/-! Operations depend only on the bytes of the structures they work on: the commands of the shell, and whole sessions. -/

namespace NT

open Spec

section Covered

variable {n : Ntfs} {img : Bytes} {S : Nat → Prop}

theorem fileinfoFilename_on (hc : Covers n img S) {a : Attr} (ha : AttrIn n S a) : On img S mk3 (fun _ => True) (fun d => fileinfoFilename a d) := by
  unfold fileinfoFilename
  refine On.step (show OnD img S (fun _ => True) (do
    let n ← a.structuredValue FileName.structured
    let ns ← StM.lift n.namespace'
    pure (InfoLine.fileName (lossy (u16s n.name)) ns n.parent.fileRecordNumber) : StM Dev InfoLine) from
    .bind (Attr.structuredValue_on hc FileName.onReads ha) fun _ _ => .bindL fun _ _ => .pure trivial) fun x _ _ => ?_
  cases x with
  | ok l => exact ⟨_, fun d d' h => by rw [h], .done (Res.ok (), [.head .fileName, l]) trivial⟩
  | err e => exact ⟨_, fun d d' h => by rw [h], .done (Res.err e, [.head .fileName]) trivial⟩
  | panic e => exact ⟨_, fun d d' h => by rw [h], .done (Res.panic e, [.head .fileName]) trivial⟩
  | diverge => exact ⟨_, fun d d' h => by rw [h], .done (Res.diverge, [.head .fileName]) trivial⟩

theorem fileinfoAttr_on (hc : Covers n img S) {a : Attr} (ha : AttrIn n S a) : On img S mk3 (fun _ => True) (fun d => fileinfoAttr a d) := by
  unfold fileinfoAttr
  cases a.ty with
  | ok t =>
    cases t with
    | standardInformation => exact .done (fileinfoStd a) trivial
    | fileName => exact fileinfoFilename_on hc ha
    | data => exact .done (fileinfoData a) trivial
    | _ => exact .done (Res.ok (), []) trivial
  | err e => exact .done (Res.ok (), []) trivial
  | panic e => exact .done (Res.panic e, []) trivial
  | diverge => exact .done (Res.diverge, []) trivial

theorem fileinfoLoop_on (hc : Covers n img S) (k : Nat) (out : List InfoLine) {it : Attrs} (hi : AttrsIn n S it) :
    On img S mk3 (fun _ => True) (fun d => fileinfoLoop k out (it, d)) := by
  induction k generalizing out it with
  | zero => exact .done (Res.diverge, out) trivial
  | succ k ih =>
    unfold fileinfoLoop
    refine On.step (Attrs.next_on hc it hi) ?_
    rintro ⟨x, it'⟩ ⟨hi', hx⟩ _
    cases x with
    | ok o =>
      cases o with
      | none => exact ⟨_, fun d d' h => by rw [h], .done (Res.ok (), out) trivial⟩
      | some i =>
        refine ⟨_, fun d d' h => by rw [h], ?_⟩
        dsimp only
        cases ha : i.toAttribute with
        | ok a =>
          dsimp only
          refine On.step (fileinfoAttr_on hc (AttrItem.toAttribute_in (hx _ rfl i rfl) a ha)) ?_
          rintro ⟨x, l⟩ _ _
          cases x with
          | ok u => exact ⟨_, fun d d' h => by rw [h], ih (out ++ l) hi'⟩
          | err e => exact ⟨_, fun d d' h => by rw [h], .done (Res.err e, out ++ l) trivial⟩
          | panic e => exact ⟨_, fun d d' h => by rw [h], .done (Res.panic e, out ++ l) trivial⟩
          | diverge => exact ⟨_, fun d d' h => by rw [h], .done (Res.diverge, out ++ l) trivial⟩
        | err e => exact .done (Res.err e, _) trivial
        | panic e => exact .done (Res.panic e, _) trivial
        | diverge => exact .done (Res.diverge, _) trivial
    | err e => exact ⟨_, fun d d' h => by rw [h], .done (Res.err e, out) trivial⟩
    | panic e => exact ⟨_, fun d d' h => by rw [h], .done (Res.panic e, out) trivial⟩
    | diverge => exact ⟨_, fun d d' h => by rw [h], .done (Res.diverge, out) trivial⟩

theorem NFile.fileinfo_on (hc : Covers n img S) {f : NFile} (hf : FileIn n S f) (fuel : Nat) : On img S mk3 (fun _ => True) (fun d => f.fileinfo fuel d) := by
  unfold NFile.fileinfo
  have h : ∀ p, (do
    let l ← f.infoLine
    let it ← f.attributes
    pure (l, it) : Res (InfoLine × Attrs)) = .ok p → AttrsIn n S p.2 := by
    intro p hp
    simp only [Res.bind_eq_ok] at hp
    obtain ⟨l, _, it, h2, h3⟩ := hp
    cases h3
    exact NFile.attributes_in hf h2
  generalize (do
    let l ← f.infoLine
    let it ← f.attributes
    pure (l, it) : Res (InfoLine × Attrs)) = q at h
  cases q with
  | ok p => exact fileinfoLoop_on hc fuel [p.1] (h p rfl)
  | err e => exact .done (Res.err e, []) trivial
  | panic e => exact .done (Res.panic e, []) trivial
  | diverge => exact .done (Res.diverge, []) trivial

theorem Shell.fileinfo_on (hc : Covers n img S) {s : Shell} (hs : ShellIn n S s) (arg : List Char) (fuel : Nat) : On img S mk3 (fun _ => True) (fun d => s.fileinfo arg fuel d) := by
  unfold Shell.fileinfo
  refine On.step (Shell.parseFileArg_on hc hs arg fuel) fun x hx _ => ?_
  cases x with
  | ok o =>
    cases o with
    | error m => exact ⟨_, fun d d' h => by rw [h], .done (Res.ok (.error m), []) trivial⟩
    | ok f =>
      refine ⟨_, fun d d' h => by rw [h], ?_⟩
      dsimp only
      refine On.step (NFile.fileinfo_on hc (hx _ rfl f rfl) fuel) ?_
      rintro ⟨x, l⟩ _ _
      cases x with
      | ok u => exact ⟨_, fun d d' h => by rw [h], .done (Res.ok (.ok ()), l) trivial⟩
      | err e => exact ⟨_, fun d d' h => by rw [h], .done (Res.err e, l) trivial⟩
      | panic e => exact ⟨_, fun d d' h => by rw [h], .done (Res.panic e, l) trivial⟩
      | diverge => exact ⟨_, fun d d' h => by rw [h], .done (Res.diverge, l) trivial⟩
  | err e => exact ⟨_, fun d d' h => by rw [h], .done (Res.err e, []) trivial⟩
  | panic e => exact ⟨_, fun d d' h => by rw [h], .done (Res.panic e, []) trivial⟩
  | diverge => exact ⟨_, fun d d' h => by rw [h], .done (Res.diverge, []) trivial⟩

theorem Ntfs.fsinfo_on (hc : Covers n img S) : On img S mk3 (fun _ => True) (fun d => n.fsinfo d) := by
  unfold Ntfs.fsinfo
  dsimp only
  refine On.step (Ntfs.volumeInfo_on hc) fun x _ _ => ?_
  cases x with
  | ok v =>
    refine ⟨_, fun d d' h => by rw [h], ?_⟩
    dsimp only
    refine On.step (Ntfs.volumeName_on hc) fun x _ _ => ?_
    cases x with
    | ok o =>
      cases o with
      | none => exact ⟨_, fun d d' h => by rw [h], .done (Res.ok (), _) trivial⟩
      | some x => exact ⟨_, fun d d' h => by rw [h], .done (Res.ok (), _) trivial⟩
    | err e => exact ⟨_, fun d d' h => by rw [h], .done (Res.ok (), _) trivial⟩
    | panic e => exact ⟨_, fun d d' h => by rw [h], .done (Res.panic e, _) trivial⟩
    | diverge => exact ⟨_, fun d d' h => by rw [h], .done (Res.diverge, _) trivial⟩
  | err e => exact ⟨_, fun d d' h => by rw [h], .done (Res.err e, _) trivial⟩
  | panic e => exact ⟨_, fun d d' h => by rw [h], .done (Res.panic e, _) trivial⟩
  | diverge => exact ⟨_, fun d d' h => by rw [h], .done (Res.diverge, _) trivial⟩

theorem attrPrint_on (hc : Covers n img S) (w : Bool) {a : Attr} (ha : AttrIn n S a) (record : Nat) (nested : Bool) (fuel : Nat) :
    On img S mk3 (fun _ => True) (fun d => attrPrint w a record nested fuel d) := by
  unfold attrPrint
  cases a.line record nested with
  | ok l =>
    dsimp only
    refine .ite (fun _ => ?_) fun _ => .done (Res.ok (), [l]) trivial
    refine On.step (Attr.value_on hc ha) fun x _ _ => ?_
    cases x with
    | ok v =>
      match v with
      | .simple (.nonRes v) =>
        exact ⟨_, fun d d' h => by rw [h],
          .done ((attrRuns nested fuel 0 v.dataRuns).1, l :: (attrRuns nested fuel 0 v.dataRuns).2) trivial⟩
      | .simple (.res v) => exact ⟨_, fun d d' h => by rw [h], .done (Res.ok (), [l]) trivial⟩
      | .list v => exact ⟨_, fun d d' h => by rw [h], .done (Res.ok (), [l]) trivial⟩
    | err e => exact ⟨_, fun d d' h => by rw [h], .done (Res.err e, [l]) trivial⟩
    | panic e => exact ⟨_, fun d d' h => by rw [h], .done (Res.panic e, [l]) trivial⟩
    | diverge => exact ⟨_, fun d d' h => by rw [h], .done (Res.diverge, [l]) trivial⟩
  | err e => exact .done (Res.err e, []) trivial
  | panic e => exact .done (Res.panic e, []) trivial
  | diverge => exact .done (Res.diverge, []) trivial

theorem attrEntries_on (hc : Covers n img S) (w : Bool) (file : NFile) (fuel k : Nat) (out : List AttrLine) {l : AttrList}
    (hl : ListIn S l) :
    On img S mk3 (fun _ => True) (fun d => attrEntries w n file fuel k out (l, d)) := by
  induction k generalizing out l with
  | zero => exact .done (Res.diverge, out) trivial
  | succ k ih =>
    unfold attrEntries
    refine On.step (AttrList.next_on img S l hl) ?_
    rintro ⟨x, l'⟩ ⟨hl', _⟩ _
    cases x with
    | ok o =>
      cases o with
      | none => exact ⟨_, fun d d' h => by rw [h], .done (Res.ok (), out) trivial⟩
      | some e =>
        refine ⟨_, fun d d' h => by rw [h], ?_⟩
        dsimp only
        refine .ite (fun _ => ih _ hl') fun _ => ?_
        refine On.step (show OnD img S (AttrIn n S) (do
          let f ← e.toFile n
          StM.lift (e.toAttribute f) : StM Dev Attr) from .bind (Ntfs.file_on hc _) fun f hf => .lift fun a ha => by
            obtain ⟨h1, h2, h3⟩ := ListEntry.toAttribute_in ha
            exact ⟨h1 ▸ hf, h1 ▸ h3, fun l h => by rw [h2] at h; cases h⟩) fun x hx _ => ?_
        cases x with
        | ok a =>
          refine ⟨_, fun d d' h => by rw [h], ?_⟩
          dsimp only
          refine On.step (attrPrint_on hc w (hx a rfl) e.ref.fileRecordNumber true fuel) ?_
          rintro ⟨x, o⟩ _ _
          cases x with
          | ok u => exact ⟨_, fun d d' h => by rw [h], ih (out ++ o) hl'⟩
          | err e => exact ⟨_, fun d d' h => by rw [h], .done (Res.err e, out ++ o) trivial⟩
          | panic e => exact ⟨_, fun d d' h => by rw [h], .done (Res.panic e, out ++ o) trivial⟩
          | diverge => exact ⟨_, fun d d' h => by rw [h], .done (Res.diverge, out ++ o) trivial⟩
        | err e => exact ⟨_, fun d d' h => by rw [h], .done (Res.err e, out) trivial⟩
        | panic e => exact ⟨_, fun d d' h => by rw [h], .done (Res.panic e, out) trivial⟩
        | diverge => exact ⟨_, fun d d' h => by rw [h], .done (Res.diverge, out) trivial⟩
    | err e => exact ⟨_, fun d d' h => by rw [h], .done (Res.err e, out) trivial⟩
    | panic e => exact ⟨_, fun d d' h => by rw [h], .done (Res.panic e, out) trivial⟩
    | diverge => exact ⟨_, fun d d' h => by rw [h], .done (Res.diverge, out) trivial⟩

theorem attrOwn_on (hc : Covers n img S) (w : Bool) (file : NFile) (fuel : Nat) {a : Attr} (ha : AttrIn n S a)
    (out : List AttrLine) :
    On img S mk3 (fun _ => True) (fun d => attrOwn w n file fuel a out d) := by
  unfold attrOwn
  cases a.ty with
  | ok t =>
    dsimp only
    refine On.step (attrPrint_on hc w ha file.fileRecordNumber false fuel) ?_
    rintro ⟨x, o⟩ _ _
    cases x with
    | ok u =>
      refine ⟨_, fun d d' h => by rw [h], ?_⟩
      dsimp only
      refine .ite (fun _ => ?_) fun _ => .done (Res.ok (), out ++ o) trivial
      refine On.step (Attr.attributeList_on hc ha) fun x hx _ => ?_
      cases x with
      | ok l => exact ⟨_, fun d d' h => by rw [h], attrEntries_on hc w file fuel fuel (out ++ o) (hx l rfl)⟩
      | err e => exact ⟨_, fun d d' h => by rw [h], .done (Res.err e, out ++ o) trivial⟩
      | panic e => exact ⟨_, fun d d' h => by rw [h], .done (Res.panic e, out ++ o) trivial⟩
      | diverge => exact ⟨_, fun d d' h => by rw [h], .done (Res.diverge, out ++ o) trivial⟩
    | err e => exact ⟨_, fun d d' h => by rw [h], .done (Res.err e, out ++ o) trivial⟩
    | panic e => exact ⟨_, fun d d' h => by rw [h], .done (Res.panic e, out ++ o) trivial⟩
    | diverge => exact ⟨_, fun d d' h => by rw [h], .done (Res.diverge, out ++ o) trivial⟩
  | err e => exact .done (Res.err e, out) trivial
  | panic e => exact .done (Res.panic e, out) trivial
  | diverge => exact .done (Res.diverge, out) trivial

theorem attrLoop_on (hc : Covers n img S) (w : Bool) (file : NFile) (fuel k : Nat) (out : List AttrLine) {it : AttrsRaw}
    (hi : FileIn n S it.file) (ho : ∀ a, Shows it a → Own it.file a.offset) :
    On img S mk3 (fun _ => True) (fun d => attrLoop w n file fuel k out it d) := by
  induction k generalizing out it with
  | zero => exact .done (Res.diverge, out) trivial
  | succ k ih =>
    unfold attrLoop
    have hn := AttrsRaw.next_in (it := it)
    have hl : ∀ b, Shows it.next.2 b → Shows it b := fun _ h => .later h
    have hh : ∀ b it', it.next = (some (.ok b), it') → Shows it b := fun _ _ h => .here h
    generalize it.next = q at hn hl hh
    obtain ⟨x, it'⟩ := q
    dsimp only at hn hl
    cases x with
    | none => exact .done (Res.ok (), out) trivial
    | some x =>
      cases x with
      | ok a =>
        dsimp only
        have ha : AttrIn n S a := by
          obtain ⟨h1, h2⟩ := hn.2 a rfl
          refine ⟨h1 ▸ hi, ?_, fun l h => by rw [h2] at h; cases h⟩
          rw [h1]
          exact ho a (hh a it' rfl)
        refine On.step (attrOwn_on hc w file fuel ha out) ?_
        rintro ⟨x, o⟩ _ _
        cases x with
        | ok u => exact ⟨_, fun d d' h => by rw [h], ih o (hn.1 ▸ hi) fun b hb => hn.1 ▸ ho b (hl b hb)⟩
        | err e => exact ⟨_, fun d d' h => by rw [h], .done (Res.err e, o) trivial⟩
        | panic e => exact ⟨_, fun d d' h => by rw [h], .done (Res.panic e, o) trivial⟩
        | diverge => exact ⟨_, fun d d' h => by rw [h], .done (Res.diverge, o) trivial⟩
      | err e => exact .done (Res.err e, out) trivial
      | panic e => exact .done (Res.panic e, out) trivial
      | diverge => exact .done (Res.diverge, out) trivial

theorem NFile.attr_on (hc : Covers n img S) {f : NFile} (hf : FileIn n S f) (w : Bool) (fuel : Nat) :
    On img S mk3 (fun _ => True) (fun d => f.attr w n fuel d) := by
  unfold NFile.attr
  cases h : f.attributesRaw with
  | ok it =>
    have h' := NFile.attributesRaw_file h
    exact attrLoop_on hc w f fuel fuel [] (h' ▸ hf) fun a ha => by rw [h']; exact ⟨it, a, h, ha, rfl⟩
  | err e => exact .done (Res.err e, []) trivial
  | panic e => exact .done (Res.panic e, []) trivial
  | diverge => exact .done (Res.diverge, []) trivial

theorem Shell.attr_on (hc : Covers n img S) {s : Shell} (hs : ShellIn n S s) (w : Bool) (arg : List Char) (fuel : Nat) :
    On img S mk3 (fun _ => True) (fun d => s.attr w arg fuel d) := by
  unfold Shell.attr
  refine On.step (Shell.parseFileArg_on hc hs arg fuel) fun x hx _ => ?_
  cases x with
  | ok o =>
    cases o with
    | error m => exact ⟨_, fun d d' h => by rw [h], .done (Res.ok (.error m), []) trivial⟩
    | ok f =>
      refine ⟨_, fun d d' h => by rw [h], ?_⟩
      dsimp only
      rw [hs.volume]
      refine On.step (NFile.attr_on hc (hx _ rfl f rfl) w fuel) ?_
      rintro ⟨x, l⟩ _ _
      cases x with
      | ok u => exact ⟨_, fun d d' h => by rw [h], .done (Res.ok (.ok ()), l) trivial⟩
      | err e => exact ⟨_, fun d d' h => by rw [h], .done (Res.err e, l) trivial⟩
      | panic e => exact ⟨_, fun d d' h => by rw [h], .done (Res.panic e, l) trivial⟩
      | diverge => exact ⟨_, fun d d' h => by rw [h], .done (Res.diverge, l) trivial⟩
  | err e => exact ⟨_, fun d d' h => by rw [h], .done (Res.err e, []) trivial⟩
  | panic e => exact ⟨_, fun d d' h => by rw [h], .done (Res.panic e, []) trivial⟩
  | diverge => exact ⟨_, fun d d' h => by rw [h], .done (Res.diverge, []) trivial⟩

theorem Session.run_on (hc : Covers n img S) (fuel : Nat) (c : Command) {s : Session} (hs : ShellIn n S s.shell) :
    On img S mk4 (fun b => ShellIn n S b.2.2.shell) (fun d => s.run fuel c d) := by
  unfold Session.run
  cases c with
  | attr w arg =>
    dsimp only
    refine On.step (Shell.attr_on hc hs w arg fuel) ?_
    rintro ⟨x, l⟩ _ _
    exact ⟨_, fun d d' h => by rw [h],
      .done ((shownResult x (l.map .attr)).1, (shownResult x (l.map .attr)).2, s) hs⟩
  | cd arg =>
    dsimp only
    refine On.step (Shell.cd_on hc hs arg fuel) fun x hx _ => ?_
    cases x with
    | ok a => exact ⟨_, fun d d' h => by rw [h],
        .done (Res.ok (), a.1.toList.map ShellMsg.shown, { s with shell := a.2 }) (hx a rfl)⟩
    | err e => exact ⟨_, fun d d' h => by rw [h], .done (Res.ok (), [.error (.lib e)], s) hs⟩
    | panic e => exact ⟨_, fun d d' h => by rw [h], .done (Res.panic e, [], s) hs⟩
    | diverge => exact ⟨_, fun d d' h => by rw [h], .done (Res.diverge, [], s) hs⟩
  | dir =>
    dsimp only
    refine On.step (Shell.dir_on hc hs fuel) ?_
    rintro ⟨x, l⟩ _ _
    cases x with
    | ok a => exact ⟨_, fun d d' h => by rw [h], .done (Res.ok (), l.map fun e => .entry e.1 e.2, s) hs⟩
    | err e => exact ⟨_, fun d d' h => by rw [h],
        .done (Res.ok (), l.map (fun e => .entry e.1 e.2) ++ [.error (.lib e)], s) hs⟩
    | panic e => exact ⟨_, fun d d' h => by rw [h], .done (Res.panic e, l.map fun e => .entry e.1 e.2, s) hs⟩
    | diverge => exact ⟨_, fun d d' h => by rw [h], .done (Res.diverge, l.map fun e => .entry e.1 e.2, s) hs⟩
  | exit => exact .done (Res.ok (), [], s) hs
  | fileinfo arg =>
    dsimp only
    refine On.step (Shell.fileinfo_on hc hs arg fuel) ?_
    rintro ⟨x, l⟩ _ _
    exact ⟨_, fun d d' h => by rw [h],
      .done ((shownResult x (l.map .info)).1, (shownResult x (l.map .info)).2, s) hs⟩
  | fsinfo =>
    dsimp only
    rw [hs.volume]
    refine On.step (Ntfs.fsinfo_on hc) ?_
    rintro ⟨x, l⟩ _ _
    cases x with
    | ok a => exact ⟨_, fun d d' h => by rw [h], .done (Res.ok (), l.map .fs, s) hs⟩
    | err e => exact ⟨_, fun d d' h => by rw [h], .done (Res.ok (), l.map .fs ++ [.error (.lib e)], s) hs⟩
    | panic e => exact ⟨_, fun d d' h => by rw [h], .done (Res.panic e, l.map .fs, s) hs⟩
    | diverge => exact ⟨_, fun d d' h => by rw [h], .done (Res.diverge, l.map .fs, s) hs⟩
  | get arg =>
    dsimp only
    refine On.step (Shell.getShown_on hc hs arg s.host.blocked fuel) ?_
    rintro ⟨x, k, f⟩ _ _
    exact ⟨_, fun d d' h => by rw [h],
      .done ((shownResult x (k.toList.map fun k => .saving k (outputName (splitStream arg).1 (splitStream arg).2))).1,
        (shownResult x (k.toList.map fun k => .saving k (outputName (splitStream arg).1 (splitStream arg).2))).2,
        { s with host := s.host.write f }) hs⟩
  | help arg => exact .done (Res.ok (), [TermLine.help (helpText arg)], s) hs
  | nothing => exact .done (Res.ok (), [], s) hs
  | invalid w => exact .done (Res.ok (), [TermLine.error (.invalidCommand w)], s) hs

theorem Session.loop_on (hc : Covers n img S) (fuel : Nat) (lines : List (Option (List Char))) {s : Session}
    (hs : ShellIn n S s.shell) :
    On img S mk4 (fun _ => True) (fun d => Session.loop fuel lines s d) := by
  induction lines generalizing s with
  | nil => exact .done (Res.ok (), [TermLine.prompt s.shell.path], s) trivial
  | cons l lines ih =>
    cases l with
    | none => exact .done (Res.panic .unwrap, [TermLine.prompt s.shell.path], s) trivial
    | some line =>
      unfold Session.loop
      refine .ite (fun _ => .done (Res.ok (), [TermLine.prompt s.shell.path], s) trivial) fun _ =>
        .ite (fun _ => .done (Res.ok (), [TermLine.prompt s.shell.path], s) trivial) fun _ => ?_
      refine On.step (Session.run_on hc fuel (Command.parse line) hs) ?_
      rintro ⟨x, out, s'⟩ hs' _
      cases x with
      | ok u =>
        refine ⟨_, fun d d' h => by rw [h], ?_⟩
        dsimp only
        refine On.step (ih hs') ?_
        rintro ⟨x, out', s''⟩ _ _
        exact ⟨_, fun d d' h => by rw [h], .done (x, .prompt s.shell.path :: (out ++ out'), s'') trivial⟩
      | err e => exact ⟨_, fun d d' h => by rw [h], .done (Res.err e, .prompt s.shell.path :: out, s') trivial⟩
      | panic e => exact ⟨_, fun d d' h => by rw [h], .done (Res.panic e, .prompt s.shell.path :: out, s') trivial⟩
      | diverge => exact ⟨_, fun d d' h => by rw [h], .done (Res.diverge, .prompt s.shell.path :: out, s') trivial⟩

end Covered

end NT
