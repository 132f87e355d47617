import Verif.Lemmas.LocalFile

/-! Operations depend only on the bytes of the structures they work on: structured values, indexes and the shell. -/

namespace NT

open Spec

/-! ### Structured values -/

/-- A structured value that is decoded by reading only. -/
def Structured.OnReads {α : Type} (K : Structured α) : Prop :=
  ∀ (img : Bytes) (S : Nat → Prop) (J : Val → Prop) (re : Nat → StM (Val × Dev) Bytes),
    (∀ k, OnS img S J (fun _ => True) (re k)) → ∀ p len, OnS img S J (fun _ => True) (K.new re p len)

theorem StdInfo.onReads : StdInfo.structured.OnReads := by
  intro img S J re h p len
  show OnS img S J (fun _ => True) (StdInfo.new re p len)
  unfold StdInfo.new
  refine .ite (fun _ => .fail _) fun _ => .bind (h _) fun _ _ => .bindL fun _ _ => ?_
  refine .ite (fun _ => ?_) fun _ => ?_
  · exact .bind (h _) fun _ _ => .bindL fun _ _ => .pure trivial
  · exact .pure trivial

theorem FileName.onReads : FileName.structured.OnReads := by
  intro img S J re h p len
  show OnS img S J (fun _ => True) (FileName.new re p len)
  unfold FileName.new
  exact .ite (fun _ => .fail _) fun _ => .bind (h _) fun _ _ => .bindL fun _ _ => .bindL fun _ _ =>
    .bindL fun _ _ => .bind (h _) fun _ _ => .pure trivial

theorem VolumeInfo.onReads : VolumeInfo.structured.OnReads := by
  intro img S J re h p len
  show OnS img S J (fun _ => True) (VolumeInfo.new re p len)
  unfold VolumeInfo.new
  exact .ite (fun _ => .fail _) fun _ => .bind (h _) fun _ _ => .lift .all

theorem VolumeName.onReads : VolumeName.structured.OnReads := by
  intro img S J re h p len
  show OnS img S J (fun _ => True) (VolumeName.new re p len)
  unfold VolumeName.new
  exact .ite (fun _ => .fail _) fun _ => .bind (h _) fun _ _ => .pure trivial

theorem ObjectId.onReads : ObjectId.structured.OnReads := by
  intro img S J re h p len
  show OnS img S J (fun _ => True) (ObjectId.new re p len)
  have hg : OnS img S J (fun _ => True) (ObjectId.readGuid re) := .bind (h _) fun _ _ => .lift .all
  have hi : ∀ c, OnS img S J (fun _ => True) (ObjectId.readGuidIf re c) := fun c =>
    .ite (fun _ => .bind hg fun _ _ => .pure trivial) fun _ => .pure trivial
  unfold ObjectId.new
  exact .ite (fun _ => .fail _) fun _ => .bind hg fun _ _ => .bind (hi _) fun _ _ => .bind (hi _) fun _ _ =>
    .bind (hi _) fun _ _ => .pure trivial

section Covered

variable {n : Ntfs} {img : Bytes} {S : Nat → Prop}

theorem Attr.structuredValue_on (hc : Covers n img S) {α : Type} {K : Structured α} (hK : K.OnReads) {a : Attr}
    (ha : AttrIn n S a) : OnD img S (fun _ => True) (a.structuredValue K) := by
  refine .bindL fun _ _ => .bind (Attr.value_on hc ha) fun v hv => ?_
  refine On.step (hK _ _ _ _ (Val.readExactAttached_on hc) v.dataPosition v.len v hv) ?_
  rintro ⟨x, v'⟩ _ _
  refine ⟨_, fun d d' h => ?_, .done x .all⟩
  show ((K.new Val.readExactAttached v.dataPosition v.len (v, d)).1,
    (K.new Val.readExactAttached v.dataPosition v.len (v, d)).2.2) = _
  rw [h]

theorem NFile.fileName_on (hc : Covers n img S) {f : NFile} (hf : FileIn n S f) (ns : Option Namespace)
    (parent : Option Nat) (fuel : Nat) : OnD img S (fun _ => True) (f.fileName ns parent fuel) := by
  refine NFile.search_on hc trivial hf (fun _ a _ ha => ?_) fuel
  exact .bindL fun _ _ => .ite (fun _ => .pure trivial) fun _ =>
    .bind (Attr.structuredValue_on hc FileName.onReads ha) fun _ _ => .bindL fun _ _ =>
    .ite (fun _ => .pure trivial) fun _ => .pure trivial

/-! ### The volume -/

theorem Ntfs.volumeInfo_on (hc : Covers n img S) : OnD img S (fun _ => True) n.volumeInfo :=
  .bind (Ntfs.file_on hc _) fun _ _ => .lift .all

theorem Ntfs.volumeName_on (hc : Covers n img S) : OnD img S (fun _ => True) n.volumeName := by
  refine .bind (Ntfs.file_on hc _) fun f _ => ?_
  cases f.findResidentStructured VolumeName.structured none with
  | ok v => exact .pure trivial
  | err e => cases e <;> first | exact .pure trivial | exact .fail _
  | panic p => exact .die _
  | diverge => exact .lift .all

theorem Ntfs.readUpcaseTable_on (hc : Covers n img S) (fuel : Nat) :
    OnD img S (fun _ => True) (n.readUpcaseTable fuel) := by
  refine .bind (I := fun _ => True) ?_ fun _ _ => .pure trivial
  refine .bind (Ntfs.file_on hc _) fun f hf => .bind (NFile.dataItem_on hc hf _ _) fun o ho => ?_
  cases o with
  | none => exact .fail _
  | some item =>
    exact .bindL fun a ha => .bindL fun len _ => .ite (fun _ => .fail _) fun _ =>
      .bind (Attr.value_on hc (AttrItem.toAttribute_in (ho item rfl) a ha)) fun v hv =>
      .bind (Val.readInto_on hc hv _) fun _ _ => .pure trivial

end Covered

/-! ### Indexes, for any way to read the values of the kind `J` -/

section Nodes

variable {img : Bytes} {S : Nat → Prop} {J : Val → Prop}

/-- `seek` keeps values of the kind `J`, and depends only on the bytes of `S`. -/
def OnSeek (img : Bytes) (S : Nat → Prop) (J : Val → Prop) : Prop :=
  ∀ v, J v → ∀ pos, On img S mk3 (fun b => J b.2) (fun d => Val.seek v pos d)

theorem IndexAllocation.seekTo_on (hs : OnSeek img S J) {v : Val} (hv : J v) (pos : SeekFrom) :
    OnD img S J (IndexAllocation.seekTo v pos) := by
  refine On.step (hs v hv pos) ?_
  rintro ⟨x, v'⟩ hv' _
  cases x with
  | ok u =>
    refine ⟨_, fun d d' h => ?_, .done (Res.ok v') fun _ h => by cases h; exact hv'⟩
    unfold IndexAllocation.seekTo
    rw [h]
  | err e =>
    refine ⟨_, fun d d' h => ?_, .done (Res.err e) fun _ h => nomatch h⟩
    unfold IndexAllocation.seekTo
    rw [h]
  | panic e =>
    refine ⟨_, fun d d' h => ?_, .done (Res.panic e) fun _ h => nomatch h⟩
    unfold IndexAllocation.seekTo
    rw [h]
  | diverge =>
    refine ⟨_, fun d d' h => ?_, .done Res.diverge fun _ h => nomatch h⟩
    unfold IndexAllocation.seekTo
    rw [h]

theorem IndexRecord.new_on (hr : OnRead img S J Val.readFn) {v : Val} (hv : J v) (size : Nat) :
    OnD img S (fun _ => True) (IndexRecord.new v size) :=
  .bind (Val.readInto_on' hr hv _) fun _ _ => .lift .all

theorem IndexAllocation.recordFromVcn_on (hr : OnRead img S J Val.readFn) (hs : OnSeek img S J) {a : IndexAllocation}
    (ha : J a.value) (size : Nat) (vcn : Int) : OnD img S (fun _ => True) (a.recordFromVcn size vcn) :=
  .bindL fun _ _ => .bind (IndexAllocation.seekTo_on hs ha _) fun _ hv => .ite (fun _ => .fail _) fun _ =>
    .bind (IndexRecord.new_on hr hv _) fun _ _ => .bindL fun _ _ => .ite (fun _ => .fail _) fun _ => .pure trivial

theorem IndexRecords.next_on (hr : OnRead img S J Val.readFn) (hs : OnSeek img S J) :
    OnS img S (fun it => J it.allocation.value) (fun _ => True) IndexRecords.next := by
  intro it hit
  unfold IndexRecords.next
  dsimp only
  refine .ite (fun _ => .done3 (J := fun it : IndexRecords => J it.allocation.value) (Res.ok none) it hit .all) fun _ => ?_
  refine On.step (IndexRecord.new_on hr hit it.size) fun x _ _ => ?_
  cases x with
  | ok r =>
    refine ⟨_, fun d d' h => by rw [h], ?_⟩
    dsimp only
    refine On.step (hs _ hit (.current it.size)) ?_
    rintro ⟨x, v'⟩ hv' _
    cases x with
    | ok u =>
      refine ⟨_, fun d d' h => by rw [h], ?_⟩
      exact .done3 (J := fun it : IndexRecords => J it.allocation.value) (Res.ok (some r))
        { it with allocation := { it.allocation with value := v' } } hv' .all
    | err e =>
      refine ⟨_, fun d d' h => by rw [h], ?_⟩
      exact .done3 (J := fun it : IndexRecords => J it.allocation.value) (Res.err e)
        { it with allocation := { it.allocation with value := v' } } hv' .all
    | panic e =>
      refine ⟨_, fun d d' h => by rw [h], ?_⟩
      exact .done3 (J := fun it : IndexRecords => J it.allocation.value) (Res.panic e)
        { it with allocation := { it.allocation with value := v' } } hv' .all
    | diverge =>
      refine ⟨_, fun d d' h => by rw [h], ?_⟩
      exact .done3 (J := fun it : IndexRecords => J it.allocation.value) Res.diverge
        { it with allocation := { it.allocation with value := v' } } hv' .all
  | err e =>
    refine ⟨_, fun d d' h => by rw [h], ?_⟩
    exact .done3 (J := fun it : IndexRecords => J it.allocation.value) (Res.err e) it hit .all
  | panic e =>
    refine ⟨_, fun d d' h => by rw [h], ?_⟩
    exact .done3 (J := fun it : IndexRecords => J it.allocation.value) (Res.panic e) it hit .all
  | diverge =>
    refine ⟨_, fun d d' h => by rw [h], ?_⟩
    exact .done3 (J := fun it : IndexRecords => J it.allocation.value) Res.diverge it hit .all

/-! ### Walking through an index whose subnodes can be read -/

theorem IndexEntries.loop_on {ix : Index} (hx : ∀ vcn, OnD img S (fun _ => True) (ix.subnode vcn)) (fuel : Nat) :
    OnS img S (fun _ => True) (fun _ => True) (IndexEntries.loop ix fuel) := by
  induction fuel with
  | zero => exact fun s _ => .done3T Res.diverge s
  | succ fuel ih =>
    intro it _
    unfold IndexEntries.loop
    dsimp only
    cases it.inner with
    | nil => exact .done3T (Res.ok none) it
    | cons top below =>
      dsimp only
      generalize top.next = q
      obtain ⟨x, top'⟩ := q
      cases x with
      | ok o =>
        cases o with
        | some r =>
          dsimp only
          cases IndexEntries.inspect r top'.data with
          | ok p =>
            obtain ⟨last, o⟩ := p
            cases o with
            | some vcn =>
              dsimp only
              refine On.step (hx vcn) fun x _ _ => ?_
              cases x with
              | ok sub =>
                refine ⟨_, fun d d' h => by rw [h], ?_⟩
                exact ih _ trivial
              | err e =>
                refine ⟨_, fun d d' h => by rw [h], ?_⟩
                exact .done3T (Res.err e) _
              | panic e =>
                refine ⟨_, fun d d' h => by rw [h], ?_⟩
                exact .done3T (Res.panic e) _
              | diverge =>
                refine ⟨_, fun d d' h => by rw [h], ?_⟩
                exact .done3T Res.diverge _
            | none =>
              dsimp only
              cases last with
              | true => exact ih _ trivial
              | false => exact .done3T (Res.ok _) _
          | err e => exact .done3T (Res.err e) _
          | panic e => exact .done3T (Res.panic e) _
          | diverge => exact .done3T Res.diverge _
        | none =>
          dsimp only
          cases it.following with
          | nil => exact .done3T (Res.ok none) _
          | cons o rest =>
            cases o with
            | some r => exact .done3T (Res.ok _) _
            | none => exact ih _ trivial
      | err e => exact .done3T (Res.err e) _
      | panic e => exact .done3T (Res.panic e) _
      | diverge => exact .done3T Res.diverge _

theorem IndexEntries.next_on {ix : Index} (hx : ∀ vcn, OnD img S (fun _ => True) (ix.subnode vcn)) (fuel : Nat) :
    OnS img S (fun _ => True) (fun _ => True) (IndexEntries.next ix fuel) := by
  intro it _
  unfold IndexEntries.next
  refine On.step (IndexEntries.loop_on hx fuel it trivial) ?_
  rintro ⟨x, it'⟩ _ _
  cases x with
  | ok o =>
    cases o with
    | none =>
      refine ⟨_, fun d d' h => by rw [h], ?_⟩
      exact .done3T (Res.ok none) _
    | some r =>
      refine ⟨_, fun d d' h => by rw [h], ?_⟩
      dsimp only
      cases IndexEntries.entryOf r it' with
      | ok e => exact .done3T (Res.ok _) _
      | err e => exact .done3T (Res.err e) _
      | panic e => exact .done3T (Res.panic e) _
      | diverge => exact .done3T Res.diverge _
  | err e =>
    refine ⟨_, fun d d' h => by rw [h], ?_⟩
    exact .done3T (Res.err e) _
  | panic e =>
    refine ⟨_, fun d d' h => by rw [h], ?_⟩
    exact .done3T (Res.panic e) _
  | diverge =>
    refine ⟨_, fun d d' h => by rw [h], ?_⟩
    exact .done3T Res.diverge _

theorem Index.findLoop_on {κ : Type} (key : Bytes → Pos → Res κ) (cmp : κ → Res Ordering) {ix : Index}
    (hx : ∀ vcn, OnD img S (fun _ => True) (ix.subnode vcn)) (fuel : Nat) (it : NodeRanges) :
    OnD img S (fun _ => True) (Index.findLoop key cmp ix fuel it) := by
  induction fuel generalizing it with
  | zero => exact .lift .all
  | succ fuel ih =>
    unfold OnD
    unfold Index.findLoop
    generalize it.next = q
    obtain ⟨x, it'⟩ := q
    cases x with
    | ok o =>
      cases o with
      | none => exact .done (Res.ok none) .all
      | some r =>
        dsimp only
        cases r.toEntry it'.data with
        | ok e =>
          dsimp only
          cases Index.judge key cmp e with
          | ok o =>
            cases o with
            | some b =>
              cases b with
              | true => exact .done (Res.ok _) .all
              | false => exact ih _
            | none =>
              dsimp only
              cases e.subnodeVcn with
              | ok o =>
                cases o with
                | none => exact .done (Res.ok none) .all
                | some vcn =>
                  dsimp only
                  refine On.step (hx vcn) fun x _ _ => ?_
                  cases x with
                  | ok sub =>
                    refine ⟨_, fun d d' h => by rw [h], ?_⟩
                    exact ih _
                  | err e => exact ⟨_, fun d d' h => by rw [h], .done (Res.err e) .all⟩
                  | panic e => exact ⟨_, fun d d' h => by rw [h], .done (Res.panic e) .all⟩
                  | diverge => exact ⟨_, fun d d' h => by rw [h], .done Res.diverge .all⟩
              | err e => exact .done (Res.err e) .all
              | panic e => exact .done (Res.panic e) .all
              | diverge => exact .done Res.diverge .all
          | err e => exact .done (Res.err e) .all
          | panic e => exact .done (Res.panic e) .all
          | diverge => exact .done Res.diverge .all
        | err e => exact .done (Res.err e) .all
        | panic e => exact .done (Res.panic e) .all
        | diverge => exact .done Res.diverge .all
    | err e => exact .done (Res.err e) .all
    | panic e => exact .done (Res.panic e) .all
    | diverge => exact .done Res.diverge .all

theorem Index.findName_on {ix : Index} (hx : ∀ vcn, OnD img S (fun _ => True) (ix.subnode vcn)) (n : Ntfs)
    (name : List Nat) (fuel : Nat) : OnD img S (fun _ => True) (ix.findName n name fuel) :=
  Index.findLoop_on _ _ hx _ _

theorem dirLoop_on {ix : Index} (hx : ∀ vcn, OnD img S (fun _ => True) (ix.subnode vcn)) (fuel k : Nat)
    (out : List (Bool × Bytes)) (it : IndexEntries) :
    On img S mk3 (fun _ => True) (fun d => dirLoop ix fuel k out (it, d)) := by
  induction k generalizing out it with
  | zero => exact .done (Res.diverge, out) trivial
  | succ n ih =>
    unfold dirLoop
    refine On.step (IndexEntries.next_on hx fuel it trivial) ?_
    rintro ⟨x, it'⟩ _ _
    cases x with
    | ok o =>
      cases o with
      | none => exact ⟨_, fun d d' h => by rw [h], .done (Res.ok (), out) trivial⟩
      | some e =>
        refine ⟨_, fun d d' h => by rw [h], ?_⟩
        dsimp only
        cases e.fileNameKey with
        | ok k => exact ih _ _
        | err e => exact .done (Res.err e, _) trivial
        | panic e => exact .done (Res.panic e, _) trivial
        | diverge => exact .done (Res.diverge, _) trivial
    | err e => exact ⟨_, fun d d' h => by rw [h], .done (Res.err e, out) trivial⟩
    | panic e => exact ⟨_, fun d d' h => by rw [h], .done (Res.panic e, out) trivial⟩
    | diverge => exact ⟨_, fun d d' h => by rw [h], .done (Res.diverge, out) trivial⟩

/-- A value that is not spread over several attributes, with its clusters in `S`. -/
def SingleIn (S : Nat → Prop) : Val → Prop
  | .simple (.res _) => True
  | .simple (.nonRes v) => ValueIn S v
  | .list _ => False

theorem SingleIn.read : OnRead img S (SingleIn S) Val.readFn := by
  intro v hv buf
  match v, hv with
  | .simple (.res r), _ =>
    exact On.done (mk := mkR) ((r.read buf).1, Val.simple (.res (r.read buf).2.1), (r.read buf).2.2) trivial
  | .simple (.nonRes v), hv =>
    refine On.step (NonRes.read_on (v := v) hv buf) ?_
    rintro ⟨x, v', buf'⟩ hv' _
    refine ⟨_, fun d d' h => ?_, .done (x, Val.simple (.nonRes v'), buf') (show ValueIn S v' from hv')⟩
    unfold Val.readFn Val.read SVal.read
    dsimp only
    rw [h]
  | .list _, hv => exact hv.elim

theorem SingleIn.seek : OnSeek img S (SingleIn S) := by
  intro v hv pos
  match v, hv with
  | .simple (.res r), _ =>
    exact On.done (mk := mk3) ((SVal.seek (.res r) pos).1, Val.simple (SVal.seek (.res r) pos).2) trivial
  | .simple (.nonRes v), hv =>
    exact On.done (mk := mk3) ((SVal.seek (.nonRes v) pos).1, Val.simple (SVal.seek (.nonRes v) pos).2)
      (Spec.ValueIn.seek hv pos)
  | .list _, hv => exact hv.elim

/-- The subnodes of an index whose allocation is one value, not spread over several attributes. -/
theorem Index.subnode_on' {ix : Index}
    (hl : ∀ i a, ix.allocationItem = some i → i.toAttribute = .ok a → a.list = none)
    (h : ∀ i a v, ix.allocationItem = some i → i.toAttribute = .ok a → a.simpleValue = .ok (.nonRes v) →
      ValueIn S v) (vcn : Int) : OnD img S (fun _ => True) (ix.subnode vcn) := by
  refine .bindL fun i hi => .bindL fun a ha => ?_
  have hi' : ix.allocationItem = some i := by
    cases h : ix.allocationItem with
    | none => rw [h] at hi; cases hi
    | some j => rw [h] at hi; cases hi; rfl
  refine .bind (I := fun x => SingleIn S x.value) ?_ fun x hx => ?_
  · refine .bindL fun _ _ => ?_
    unfold Attr.value
    rw [hl i a hi' ha]
    refine .bind (I := SingleIn S) (.bindL fun v hv => .pure ?_) fun v hv => .lift fun x hx => ?_
    · cases v with
      | res r => trivial
      | nonRes w => exact h i a w hi' ha hv
    · match v, hv, hx with
      | .simple (.nonRes v), hv, hx => cases hx; exact hv
      | .simple (.res v), _, hx => cases hx
      | .list _, hv, _ => exact hv.elim
  · exact .bind (IndexAllocation.recordFromVcn_on SingleIn.read SingleIn.seek hx _ _) fun _ _ => .lift .all

end Nodes

section Covered

variable {n : Ntfs} {img : Bytes} {S : Nat → Prop}

theorem Index.subnode_on (hc : Covers n img S) {ix : Index} (hi : IndexIn n S ix) (vcn : Int) :
    OnD img S (fun _ => True) (ix.subnode vcn) := by
  refine .bindL fun i h => .bindL fun a ha => ?_
  have hi' : ix.allocationItem = some i := by
    cases h' : ix.allocationItem with
    | none => rw [h'] at h; cases h
    | some j => rw [h'] at h; cases h; rfl
  refine .bind (I := fun x => AnyIn n S x.value) ?_ fun x hx => ?_
  · refine .bindL fun _ _ => .bind (Attr.value_on hc (AttrItem.toAttribute_in (hi i hi') a ha)) fun v hv =>
      .lift fun x hx => ?_
    match v, hv, hx with
    | .simple (.nonRes v), hv, hx => cases hx; exact hv
    | .simple (.res v), _, hx => cases hx
    | .list v, hv, hx => cases hx; exact hv
  · exact .bind (IndexAllocation.recordFromVcn_on (Val.readFn_on hc) (fun _ h pos => Val.seek_on hc h pos) hx _ _)
      fun _ _ => .lift .all

theorem NFile.directoryIndex_on (hc : Covers n img S) {f : NFile} (hf : FileIn n S f) (fuel : Nat) :
    OnD img S (IndexIn n S) (f.directoryIndex fuel) := by
  refine .bindL fun _ _ => .ite (fun _ => .fail _) fun _ => .bind (NFile.findAttribute_on hc hf _ _ _) fun _ _ =>
    .bindL fun _ _ => .bindL fun root _ => .bind (I := MaybeItem n S) ?_ fun o ho => .lift fun ix hix => ?_
  · exact .bindL fun _ _ => .ite (fun _ => .bind (NFile.findAttribute_on hc hf _ _ _) fun i hi =>
      .pure fun j hj => by cases hj; exact hi) fun _ => .pure fun _ h => nomatch h
  · unfold Index.new at hix
    simp only [Res.bind_eq_ok] at hix
    obtain ⟨_, _, _, _, _, _, _, _, _, _, _, _, h⟩ := hix
    cases h
    exact ho

/-! ### The shell -/

theorem bestFileName_on (hc : Covers n img S) {f : NFile} (hf : FileIn n S f) (parent fuel : Nat) :
    OnD img S (fun _ => True) (bestFileName f parent fuel) := by
  have hl : ∀ ns, OnD img S (fun _ => True) (bestLoop f parent fuel ns) := by
    intro ns
    induction ns with
    | nil => exact .pure trivial
    | cons n ns ih =>
      refine .bind (NFile.fileName_on hc hf _ _ _) fun o _ => ?_
      cases o with
      | some n => exact .pure trivial
      | none => exact ih
  refine .bind (hl _) fun o _ => ?_
  cases o <;> exact .pure trivial

theorem IEntry.toFile_on (hc : Covers n img S) (e : IEntry) : OnD img S (FileIn n S) (e.toFile n) :=
  .bindL fun _ _ => Ntfs.file_on hc _

theorem Spec.ShellIn.last {s : Shell} (hs : ShellIn n S s) : IfOk (FileIn n S) s.last := by
  intro f hf
  unfold Shell.last at hf
  cases h : s.stack with
  | nil => rw [h] at hf; cases hf
  | cons g t =>
    rw [h] at hf
    cases hf
    exact hs.stack f (by rw [h]; exact List.mem_cons_self)

/-- A file, if there is no message. -/
def MaybeFile (n : Ntfs) (S : Nat → Prop) (o : Except ShellMsg NFile) : Prop := ∀ f, o = .ok f → FileIn n S f

theorem Shell.parseFileArg_on (hc : Covers n img S) {s : Shell} (hs : ShellIn n S s) (arg : List Char) (fuel : Nat) :
    OnD img S (MaybeFile n S) (s.parseFileArg arg fuel) := by
  unfold Shell.parseFileArg
  rw [hs.volume]
  refine .ite (fun _ => .pure fun _ h => nomatch h) fun _ => ?_
  cases stripPrefix ['/'] arg with
  | some number =>
    dsimp only
    cases parseRecordNumber number with
    | some n => exact .bind (Ntfs.file_on hc _) fun f hf => .pure fun _ h => by cases h; exact hf
    | none => exact .pure fun _ h => nomatch h
  | none =>
    refine .bind (.lift hs.last) fun dir hd => .bind (NFile.directoryIndex_on hc hd _) fun ix hix =>
      .bind (Index.findName_on (fun vcn => Index.subnode_on hc hix vcn) _ _ _) fun o _ => ?_
    cases o with
    | some e => exact .bind (IEntry.toFile_on hc _) fun f hf => .pure fun _ h => by cases h; exact hf
    | none => exact .pure fun _ h => nomatch h

theorem Shell.cd_on (hc : Covers n img S) {s : Shell} (hs : ShellIn n S s) (arg : List Char) (fuel : Nat) :
    OnD img S (fun b => ShellIn n S b.2) (s.cd arg fuel) := by
  refine .ite (fun _ => .pure hs) fun _ => .ite (fun _ => .ite (fun _ => .pure hs) fun _ => .pure
    ⟨hs.volume, fun f hf => hs.stack f (List.mem_of_mem_drop hf)⟩) fun _ => ?_
  unfold Shell.cdInto
  rw [hs.volume]
  refine .bind (.lift hs.last) fun dir hd => .bind (NFile.directoryIndex_on hc hd _) fun ix hix =>
    .bind (Index.findName_on (fun vcn => Index.subnode_on hc hix vcn) _ _ _) fun o _ => ?_
  cases o with
  | none => exact .pure hs
  | some e =>
    refine .bindL fun _ _ => .ite (fun _ => .pure hs) fun _ => .bind (IEntry.toFile_on hc _) fun f hf =>
      .bind (bestFileName_on hc hf _ _) fun o _ => ?_
    cases o with
    | error m => exact .pure hs
    | ok m =>
      refine .pure ⟨rfl, fun g hg => ?_⟩
      rcases List.mem_cons.1 hg with rfl | hg
      · exact hf
      · exact hs.stack g hg

theorem Shell.dir_on (hc : Covers n img S) {s : Shell} (hs : ShellIn n S s) (fuel : Nat) :
    On img S mk3 (fun _ => True) (fun d => s.dir fuel d) := by
  unfold Shell.dir
  refine On.step (show OnD img S (IndexIn n S) (do let f ← StM.lift s.last; f.directoryIndex fuel) from
    .bind (.lift hs.last) fun f hf => NFile.directoryIndex_on hc hf fuel) fun x hx _ => ?_
  cases x with
  | ok ix =>
    refine ⟨_, fun d d' h => by rw [h], ?_⟩
    exact dirLoop_on (fun vcn => Index.subnode_on hc (hx ix rfl) vcn) fuel fuel [] _
  | err e => exact ⟨_, fun d d' h => by rw [h], .done (Res.err e, []) trivial⟩
  | panic e => exact ⟨_, fun d d' h => by rw [h], .done (Res.panic e, []) trivial⟩
  | diverge => exact ⟨_, fun d d' h => by rw [h], .done (Res.diverge, []) trivial⟩

theorem Shell.openData_on (hc : Covers n img S) {s : Shell} (hs : ShellIn n S s) (file stream : List Char)
    (fuel : Nat) : OnD img S (fun o => ∀ v, o = .ok v → AnyIn n S v) (s.openData file stream fuel) := by
  refine .bind (Shell.parseFileArg_on hc hs _ _) fun o ho => ?_
  cases o with
  | error m => exact .pure fun _ h => nomatch h
  | ok f =>
    refine .bind (NFile.dataItem_on hc (ho f rfl) _ _) fun o ho => ?_
    cases o with
    | none => exact .pure fun _ h => nomatch h
    | some item =>
      exact .bindL fun a ha => .bind (Attr.value_on hc (AttrItem.toAttribute_in (ho item rfl) a ha)) fun v hv =>
        .pure fun _ h => by cases h; exact hv

theorem Shell.getShown_on (hc : Covers n img S) {s : Shell} (hs : ShellIn n S s) (arg : List Char)
    (exists' : List Char → Bool) (fuel : Nat) :
    On img S mk4 (fun _ => True) (fun d => s.getShown arg exists' fuel d) := by
  unfold Shell.getShown
  dsimp only
  refine .ite (fun _ => .done (Res.ok _, none, none) trivial) fun _ => ?_
  refine On.step (Shell.openData_on hc hs (splitStream arg).1 (splitStream arg).2 fuel) fun x hx _ => ?_
  cases x with
  | ok o =>
    cases o with
    | error m =>
      exact ⟨_, fun d d' h => by rw [h],
        .done (Res.ok (Except.error m), none, some (outputName (splitStream arg).1 (splitStream arg).2, [])) trivial⟩
    | ok v =>
      refine ⟨_, fun d d' h => by rw [h], ?_⟩
      dsimp only
      refine On.step (copyLoop_on (Val.readFn_on hc) fuel (hx _ rfl v rfl) (List.replicate 4096 0) []) ?_
      rintro ⟨x, v', b⟩ _ _
      cases x with
      | ok u =>
        exact ⟨_, fun d d' h => by rw [h],
          .done (Res.ok (Except.ok v.len), some v.len, some (outputName (splitStream arg).1 (splitStream arg).2, b))
            trivial⟩
      | err e =>
        exact ⟨_, fun d d' h => by rw [h],
          .done (Res.err e, some v.len, some (outputName (splitStream arg).1 (splitStream arg).2, b)) trivial⟩
      | panic e =>
        exact ⟨_, fun d d' h => by rw [h],
          .done (Res.panic e, some v.len, some (outputName (splitStream arg).1 (splitStream arg).2, b)) trivial⟩
      | diverge =>
        exact ⟨_, fun d d' h => by rw [h],
          .done (Res.diverge, some v.len, some (outputName (splitStream arg).1 (splitStream arg).2, b)) trivial⟩
  | err e =>
    exact ⟨_, fun d d' h => by rw [h],
      .done (Res.err e, none, some (outputName (splitStream arg).1 (splitStream arg).2, [])) trivial⟩
  | panic e =>
    exact ⟨_, fun d d' h => by rw [h],
      .done (Res.panic e, none, some (outputName (splitStream arg).1 (splitStream arg).2, [])) trivial⟩
  | diverge =>
    exact ⟨_, fun d d' h => by rw [h],
      .done (Res.diverge, none, some (outputName (splitStream arg).1 (splitStream arg).2, [])) trivial⟩

end Covered

end NT
