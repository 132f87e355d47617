import Verif.Lemmas.Flaky
import Verif.Lemmas.SafeRead
import Verif.Props.C24_ListEntries
import Verif.Props.C05_List

/-! A device that never answers `Interrupted`: no operation of the library reports `Interrupted` of its
own accord. So the retry loop of `read_exact` delivers a byte in every round. -/

namespace NT

/-- The device never answers `Interrupted`. -/
def Dev.Calm (d : Dev) : Prop := ∀ r ∈ d.sched, r ≠ .fail .interrupted

/-- The result is not `Interrupted`. -/
def Res.Quiet {α : Type} (x : Res α) : Prop := x ≠ .err (.io .interrupted)

namespace Res.Quiet

theorem ok {α : Type} (a : α) : Res.Quiet (.ok a) := fun h => by cases h
theorem panic {α : Type} (p : Panic) : Res.Quiet (.panic p : Res α) := fun h => by cases h
theorem diverge {α : Type} : Res.Quiet (.diverge : Res α) := fun h => by cases h

theorem bind {α β : Type} {x : Res α} {f : α → Res β} (hx : x.Quiet) (hf : ∀ a, (f a).Quiet) :
    (x >>= f).Quiet := by
  cases x with
  | ok a => exact hf a
  | err e => intro h; injection h with h; exact hx (by rw [h])
  | panic p => exact panic p
  | diverge => exact diverge

theorem err {α : Type} {e : Err} (h : e ≠ .io .interrupted) : Res.Quiet (.err e : Res α) := by
  intro h'; injection h' with h'; exact h h'

theorem ite {α : Type} {c : Prop} [Decidable c] {x y : Res α} (hx : x.Quiet) (hy : y.Quiet) :
    (if c then x else y).Quiet := by
  split
  · exact hx
  · exact hy

theorem ofOption {α : Type} {e : Err} (h : e ≠ .io .interrupted) (o : Option α) :
    (Res.ofOption e o).Quiet := by
  cases o with
  | none => exact err h
  | some a => exact ok a

/-- The same error as another quiet result. -/
theorem same {α β : Type} {e : Err} (h : Res.Quiet (.err e : Res α)) : Res.Quiet (.err e : Res β) :=
  err fun h' => h (by rw [h'])

end Res.Quiet

theorem readLE_quiet (n : Nat) (d : Bytes) (a : Nat) : (readLE n d a).Quiet :=
  .ite (.ok _) (.panic _)

theorem idxRange_quiet (d : Bytes) (a b : Nat) : (idxRange d a b).Quiet := by
  unfold idxRange
  cases getRange d a b with
  | none => exact .panic _
  | some x => exact .ok _

theorem idxByte_quiet (d : Bytes) (i : Nat) : (idxByte d i).Quiet := by
  unfold idxByte
  cases d[i]? with
  | none => exact .panic _
  | some x => exact .ok _

/-- Proves that an error that is written down is not `Interrupted`. -/
local macro "noint" : tactic => `(tactic| (intro h; cases h))

/-! ### Records and attributes -/

theorem Record.fixupLoop_quiet (p : Pos) (usn : Bytes) (n : Nat) (data : Bytes) (a s : Nat) :
    (Record.fixupLoop p usn n data a s).Quiet := by
  induction n generalizing data a s with
  | zero => exact .ok _
  | succ n ih =>
    exact .bind (idxRange_quiet _ _ _) fun _ => .bind (idxRange_quiet _ _ _) fun _ =>
      .ite (.err (by noint)) (ih _ _ _)

theorem Record.fixup_quiet (r : Record) : r.fixup.Quiet := by
  have h1 : r.usNumber.Quiet := by
    refine .bind (readLE_quiet _ _ _) fun x => ?_
    cases getRange r.data x (x + 2) with
    | none => exact .err (by noint)
    | some b => exact .ok _
  have h2 : r.usOffset.Quiet := readLE_quiet _ _ _
  exact .bind h1 fun _ => .bind (.bind (readLE_quiet _ _ _) fun _ => .ofOption (by noint) _) fun _ =>
    .bind (.bind h2 fun _ => .ite (.ok _) (.panic _)) fun _ => .bind h2 fun _ =>
    .bind (.bind (readLE_quiet _ _ _) fun _ => .ok _) fun _ =>
    .ite (.err (by noint)) (.bind (Record.fixupLoop_quiet _ _ _ _ _ _) fun _ => .ok _)

theorem NFile.ofBytes_quiet (n : Ntfs) (b : Bytes) (p i : Nat) : (NFile.ofBytes n b p i).Quiet := by
  refine .bind (.bind (idxRange_quiet _ _ _) fun _ => .ite (.ok _) (.err (by noint))) fun _ =>
    .bind (Record.fixup_quiet _) fun _ => .bind ?_ fun _ => .ok _
  exact .bind (readLE_quiet _ _ _) fun _ => .ite (.err (by noint))
    (.bind (readLE_quiet _ _ _) fun _ => .ite (.err (by noint)) (.ok _))

theorem Attr.isResident_quiet (a : Attr) : a.isResident.Quiet :=
  .bind (idxByte_quiet _ _) fun _ => .ok _

theorem Attr.assertResident_quiet (a : Attr) : a.assertResident.Quiet :=
  .bind a.isResident_quiet fun _ => .ite (.ok _) (.panic _)

theorem Attr.assertNonResident_quiet (a : Attr) : a.assertNonResident.Quiet :=
  .bind a.isResident_quiet fun _ => .ite (.panic _) (.ok _)

theorem Attr.new_quiet (f : NFile) (o : Nat) (l : Option AttrList) : (Attr.new f o l).Quiet := by
  refine .bind ?_ fun _ => .ok _
  exact .ite (.err (by noint)) (.bind (readLE_quiet _ _ _) fun _ =>
    .ite (.err (by noint)) (.ite (.err (by noint)) (.ok _)))

theorem Attr.ty_quiet (a : Attr) : a.ty.Quiet :=
  .bind (readLE_quiet _ _ _) fun _ => .ofOption (by noint) _

theorem Attr.name_quiet (a : Attr) : a.name.Quiet := by
  have h1 : a.nameOffset.Quiet := readLE_quiet _ _ _
  have h2 : a.nameLength.Quiet := .bind (idxByte_quiet _ _) fun _ => .ok _
  refine .bind h1 fun _ => .bind h2 fun _ => .ite (.ok _) (.bind ?_ fun _ => idxRange_quiet _ _ _)
  exact .bind h1 fun _ => .bind (readLE_quiet _ _ _) fun _ => .ite (.err (by noint))
    (.bind h2 fun _ => .ite (.err (by noint)) (.ok _))

theorem Attr.nonResidentValueDataAndPosition_quiet (a : Attr) :
    a.nonResidentValueDataAndPosition.Quiet :=
  .bind a.assertNonResident_quiet fun _ =>
    .bind (.bind a.assertNonResident_quiet fun _ => readLE_quiet _ _ _) fun _ =>
    .bind (readLE_quiet _ _ _) fun _ => .bind (.ofOption (by noint) _) fun _ => .ok _

theorem Attr.simpleValue_quiet (a : Attr) : a.simpleValue.Quiet := by
  have h1 : a.residentValueOffset.Quiet := .bind a.assertResident_quiet fun _ => readLE_quiet _ _ _
  have h2 : a.residentValueLength.Quiet := .bind a.assertResident_quiet fun _ => readLE_quiet _ _ _
  have h3 : a.validateResidentValueSizes.Quiet :=
    .bind a.assertResident_quiet fun _ => .bind (readLE_quiet _ _ _) fun _ => .bind h1 fun _ =>
      .ite (.err (by noint)) (.bind h2 fun _ => .ite (.ite (.err (by noint)) (.ok _)) (.err (by noint)))
  refine .bind a.isResident_quiet fun _ => .ite (.bind ?_ fun _ => .ok _) (.bind ?_ fun _ => .ok _)
  · exact .bind a.assertResident_quiet fun _ => .bind h3 fun _ => .bind h1 fun _ => .bind h2 fun _ =>
      .bind (idxRange_quiet _ _ _) fun _ => .ok _
  · refine .bind a.nonResidentValueDataAndPosition_quiet fun x =>
      .bind (.bind a.assertNonResident_quiet fun _ => readLE_quiet _ _ _) fun _ => ?_
    unfold NonRes.new
    dsimp only
    have := fun v : NonRes => v.nextDataRun_not_interrupted
    generalize hq : NonRes.nextDataRun _ = q
    have hn := congrArg Prod.fst hq ▸ this _
    obtain ⟨r, v'⟩ := q
    cases r with
    | ok b => exact .ok _
    | err e => exact .err fun h => hn (by rw [h])
    | panic p => exact .panic _
    | diverge => exact .diverge

theorem AttrsRaw.next_quiet (it : AttrsRaw) : it.next.1 ≠ some (.err (.io .interrupted)) := by
  unfold AttrsRaw.next
  cases getRange it.file.recordData it.start (it.start + 4) with
  | none => intro h; cases h
  | some b =>
    dsimp only
    split
    · intro h; cases h
    have h1 := Attr.new_quiet it.file it.start none
    cases ha : Attr.new it.file it.start none with
    | ok a =>
      dsimp only
      have h2 : a.attributeLength.Quiet := readLE_quiet _ _ _
      cases hl : a.attributeLength with
      | ok n => intro h; cases h
      | err e => intro h; injection h with h; injection h with h; rw [hl] at h2; exact h2 (by rw [h])
      | panic p => intro h; cases h
      | diverge => intro h; cases h
    | err e => intro h; injection h with h; rw [ha] at h1; injection h with h; exact h1 (by rw [h])
    | panic p => intro h; cases h
    | diverge => intro h; cases h

theorem AttrsRaw.find_quiet (t : AttrType) (name : Option (List Nat)) (i : Option Nat) (fuel : Nat)
    (it : AttrsRaw) : (AttrsRaw.find t name i fuel it).Quiet := by
  induction fuel generalizing it with
  | zero => exact .diverge
  | succ fuel ih =>
    unfold AttrsRaw.find
    have h := it.next_quiet
    generalize it.next = q at h
    obtain ⟨r, it'⟩ := q
    cases r with
    | none => exact .err (by noint)
    | some r =>
      refine .bind (fun h' => h (by rw [h'])) fun a => .bind a.ty_quiet fun _ => .ite (ih _) (.bind ?_ fun _ =>
        .ite (ih _) (.bind ?_ fun _ => .ite (ih _) (.ok _)))
      · cases i with
        | none => exact .ok _
        | some i => exact .bind (readLE_quiet _ _ _) fun _ => .ok _
      · cases name with
        | none => exact .ok _
        | some s => exact .bind a.name_quiet fun _ => .ok _

theorem NFile.findResidentAttribute_quiet (f : NFile) (t : AttrType) (name : Option (List Nat))
    (i : Option Nat) : (f.findResidentAttribute t name i).Quiet :=
  .bind (.bind (readLE_quiet _ _ _) fun _ => .bind (readLE_quiet _ _ _) fun _ => .ok _) fun _ =>
    AttrsRaw.find_quiet _ _ _ _ _

/-! ### Seeking -/

theorem seekContiguous_quiet (s l : Nat) (pos : SeekFrom) : (seekContiguous s l pos).1.Quiet := by
  unfold seekContiguous
  cases pos with
  | start n => exact .ok _
  | end_ n =>
    dsimp only
    cases (if 0 ≤ n then checkedAddU64 l n.toNat else checkedSub l (negAsU64 n)) with
    | none => exact .err (by noint)
    | some m => exact .ok _
  | current n =>
    dsimp only
    cases (if 0 ≤ n then checkedAddU64 s n.toNat else checkedSub s (negAsU64 n)) with
    | none => exact .err (by noint)
    | some m => exact .ok _

theorem optimizeSeek_quiet (s : StreamState) (pos : SeekFrom) (n : Nat) : (s.optimizeSeek pos n).Quiet := by
  have h : (s.simplifySeek pos n).Quiet := by
    unfold StreamState.simplifySeek
    cases pos with
    | start n => exact .ok _
    | end_ m =>
      refine .ite ?_ ?_
      · cases checkedAddU64 n m.toNat with
        | none => exact .err (by noint)
        | some m => exact .ok _
      · cases checkedSub n (negAsU64 m) with
        | none => exact .err (by noint)
        | some m => exact .ok _
    | current m =>
      refine .ite ?_ ?_
      · cases checkedAddU64 s.streamPosition m.toNat with
        | none => exact .err (by noint)
        | some m => exact .ok _
      · cases checkedSub s.streamPosition (negAsU64 m) with
        | none => exact .err (by noint)
        | some m => exact .ok _
  unfold StreamState.optimizeSeek
  cases hs : s.simplifySeek pos n with
  | err e => rw [hs] at h; exact h
  | panic p => exact .panic _
  | diverge => exact .diverge
  | ok x =>
    cases x with
    | start m =>
      dsimp only
      cases checkedSub m s.streamPosition with
      | none => exact .ok _
      | some k => exact .ite (.ok _) (.ok _)
    | end_ m => exact .ok _
    | current m => exact .ok _

theorem seekDataRun_quiet (s : StreamState) (pos : SeekFrom) (left : Nat) :
    (s.seekDataRun pos left).1.Quiet := by
  unfold StreamState.seekDataRun
  cases s.run with
  | none => exact .ok _
  | some r =>
    dsimp only
    by_cases h : left < r.remainingLen
    · rw [if_pos h]
      have hq : ∀ p, (r.seek p).1.Quiet := fun p => seekContiguous_quiet _ _ _
      cases pos with
      | start n =>
        dsimp only
        have hp := hq (.start left)
        generalize r.seek (.start left) = q at hp
        obtain ⟨x, r'⟩ := q
        cases x with
        | ok n => exact .ok _
        | err e => exact hp.same
        | panic p => exact .panic _
        | diverge => exact .diverge
      | current n =>
        dsimp only
        have hp := hq (.current (toI64 left))
        generalize r.seek (.current (toI64 left)) = q at hp
        obtain ⟨x, r'⟩ := q
        cases x with
        | ok n => exact .ok _
        | err e => exact hp.same
        | panic p => exact .panic _
        | diverge => exact .diverge
      | end_ n => exact .panic _
    · rw [if_neg h]; exact .ok _

theorem NonRes.seekLoop_quiet (fuel : Nat) (v : NonRes) (pos : SeekFrom) (left : Nat) :
    (NonRes.seekLoop fuel v pos left).1.Quiet := by
  induction fuel generalizing v left with
  | zero => exact .diverge
  | succ fuel ih =>
    unfold NonRes.seekLoop
    by_cases hl : left > 0
    · rw [if_pos hl]
      have h1 := seekDataRun_quiet v.st pos left
      generalize v.st.seekDataRun pos left = q at h1
      obtain ⟨x, st', left'⟩ := q
      cases x with
      | ok b =>
        cases b with
        | true => exact .ok _
        | false =>
          dsimp only
          have h2 := NonRes.nextDataRun_not_interrupted { v with st := st' }
          generalize NonRes.nextDataRun { v with st := st' } = q at h2
          obtain ⟨x, v'⟩ := q
          cases x with
          | ok b =>
            cases b with
            | true => exact ih _ _
            | false => exact .ok _
          | err e => exact Res.Quiet.same h2
          | panic p => exact .panic _
          | diverge => exact .diverge
      | err e => exact h1.same
      | panic p => exact .panic _
      | diverge => exact .diverge
    · rw [if_neg hl]; exact .ok _

theorem NonRes.seek_quiet (v : NonRes) (pos : SeekFrom) : (v.seek pos).1.Quiet := by
  unfold NonRes.seek
  have h0 := optimizeSeek_quiet v.st pos v.len
  cases ho : v.st.optimizeSeek pos v.len with
  | err e => rw [ho] at h0; exact h0.same
  | panic p => exact .panic _
  | diverge => exact .diverge
  | ok x =>
    cases x with
    | end_ n => exact .panic _
    | start n =>
      dsimp only
      have h1 : v.rewind.1.Quiet := by
        unfold NonRes.rewind
        have h2 := NonRes.nextDataRun_not_interrupted { v with runs := v.dataRuns, st := StreamState.new v.len }
        generalize NonRes.nextDataRun { v with runs := v.dataRuns, st := StreamState.new v.len } = q at h2
        obtain ⟨x, v'⟩ := q
        cases x with
        | ok b => exact .ok _
        | err e => exact Res.Quiet.same h2
        | panic p => exact .panic _
        | diverge => exact .diverge
      generalize v.rewind = q at h1
      obtain ⟨x, v1⟩ := q
      cases x with
      | ok u =>
        dsimp only
        have h2 := NonRes.seekLoop_quiet (v.data.length + 2) v1 (.start n) n
        generalize NonRes.seekLoop (v.data.length + 2) v1 (.start n) n = q at h2
        obtain ⟨x, v2⟩ := q
        cases x with
        | ok u => exact .ok _
        | err e => exact h2.same
        | panic p => exact .panic _
        | diverge => exact .diverge
      | err e => exact h1.same
      | panic p => exact .panic _
      | diverge => exact .diverge
    | current n =>
      dsimp only
      by_cases hn : 0 ≤ n
      · rw [if_pos hn]
        have h2 := NonRes.seekLoop_quiet (v.data.length + 2) v (.current n) n.toNat
        generalize NonRes.seekLoop (v.data.length + 2) v (.current n) n.toNat = q at h2
        obtain ⟨x, v2⟩ := q
        cases x with
        | ok u =>
          dsimp only
          by_cases hu : v2.st.streamPosition + n.toNat < U64
          · rw [if_pos hu]; exact .ok _
          · rw [if_neg hu]; exact .panic _
        | err e => exact h2.same
        | panic p => exact .panic _
        | diverge => exact .diverge
      · rw [if_neg hn]; exact .panic _

theorem SVal.seek_quiet (v : SVal) (pos : SeekFrom) : (v.seek pos).1.Quiet := by
  cases v with
  | res v => exact seekContiguous_quiet _ _ _
  | nonRes v => exact v.seek_quiet pos

/-! ### Operations on a device -/

/-- On a device that never answers `Interrupted` the operation does not report it. -/
def StM.Quiet {S α : Type} [OnDevice S] (p : StM S α) : Prop :=
  ∀ s, (OnDevice.dev s).Calm → (p s).1.Quiet ∧ (OnDevice.dev (p s).2).Calm

namespace StM.Quiet

theorem lift {S α : Type} [OnDevice S] {x : Res α} (h : x.Quiet) : StM.Quiet (StM.lift x : StM S α) :=
  fun _ hs => ⟨h, hs⟩

theorem pure {S α : Type} [OnDevice S] (a : α) : StM.Quiet (Pure.pure a : StM S α) :=
  fun _ hs => ⟨.ok _, hs⟩

theorem fail {S α : Type} [OnDevice S] {e : Err} (h : e ≠ .io .interrupted) :
    StM.Quiet (StM.fail e : StM S α) :=
  fun _ hs => ⟨.err h, hs⟩

theorem die {S α : Type} [OnDevice S] (p : Panic) : StM.Quiet (StM.die p : StM S α) :=
  fun _ hs => ⟨.panic _, hs⟩

theorem bind {S α β : Type} [OnDevice S] {p : StM S α} {f : α → StM S β} (hp : p.Quiet)
    (hf : ∀ a, (f a).Quiet) : StM.Quiet (p >>= f) := by
  intro s hs
  rw [StM.bind_apply]
  have h := hp s hs
  generalize p s = q at h
  obtain ⟨r, s'⟩ := q
  cases r with
  | ok a => exact hf a s' h.2
  | err e => exact ⟨h.1.same, h.2⟩
  | panic p => exact ⟨.panic _, h.2⟩
  | diverge => exact ⟨.diverge, h.2⟩

theorem ite {S α : Type} [OnDevice S] {c : Prop} [Decidable c] {p q : StM S α} (hp : p.Quiet)
    (hq : q.Quiet) : StM.Quiet (if c then p else q) := by
  split
  · exact hp
  · exact hq

end StM.Quiet

theorem Dev.Calm.tail {d : Dev} (h : d.Calm) {r : Resp} {s : List Resp} (hs : d.sched = r :: s)
    (img : Bytes) (pos : Nat) : Dev.Calm ⟨img, pos, s⟩ :=
  fun x hx => h x (by rw [hs]; exact List.mem_cons_of_mem _ hx)

theorem Dev.seekStart_quiet (p : Nat) : (Dev.seekStart p).Quiet := by
  rintro ⟨img, pos, sched⟩ hd
  cases sched with
  | nil => exact ⟨.ok _, hd⟩
  | cons r s =>
    have ht : ∀ pos, Dev.Calm ⟨img, pos, s⟩ := fun pos => hd.tail rfl img pos
    cases r with
    | chunk k => exact ⟨.ok _, ht _⟩
    | fail e =>
      refine ⟨.err fun h => ?_, ht _⟩
      injection h with h
      exact hd (.fail e) List.mem_cons_self (by rw [h])

theorem Dev.read_quiet (n : Nat) : (Dev.read n).Quiet := by
  rintro ⟨img, pos, sched⟩ hd
  cases sched with
  | nil => exact ⟨.ok _, hd⟩
  | cons r s =>
    have ht : ∀ pos, Dev.Calm ⟨img, pos, s⟩ := fun pos => hd.tail rfl img pos
    cases r with
    | chunk k => exact ⟨.ok _, ht _⟩
    | fail e =>
      refine ⟨.err fun h => ?_, ht _⟩
      injection h with h
      exact hd (.fail e) List.mem_cons_self (by rw [h])

theorem Dev.readExactAux_quiet (fuel n : Nat) (acc : Bytes) : (Dev.readExactAux fuel n acc).Quiet := by
  induction fuel generalizing n acc with
  | zero => exact fun _ h => ⟨.diverge, h⟩
  | succ fuel ih =>
    intro d hd
    unfold Dev.readExactAux
    by_cases hn : n = 0
    · rw [if_pos hn]; exact ⟨.ok _, hd⟩
    rw [if_neg hn]
    have h := Dev.read_quiet n d hd
    generalize Dev.read n d = q at h
    obtain ⟨r, d'⟩ := q
    cases r with
    | ok b =>
      dsimp only
      by_cases hb : b.length = 0
      · rw [if_pos hb]; exact ⟨.err (by noint), h.2⟩
      · rw [if_neg hb]; exact ih _ _ d' h.2
    | err e =>
      cases e
      case io e =>
        cases e
        case interrupted => exact absurd rfl h.1
        all_goals exact ⟨.err (by noint), h.2⟩
      all_goals exact ⟨.err (by noint), h.2⟩
    | panic p => exact ⟨.panic _, h.2⟩
    | diverge => exact ⟨.diverge, h.2⟩

theorem Dev.readExact_quiet (n : Nat) : (Dev.readExact n).Quiet := fun d hd =>
  Dev.readExactAux_quiet _ _ _ d hd

theorem DataRun.read_quiet (r : DataRun) (buf : Bytes) (d : Dev) (hd : d.Calm) :
    (r.read buf d).1.Quiet ∧ (r.read buf d).2.2.2.Calm := by
  unfold DataRun.read
  by_cases h0 : r.remainingLen = 0
  · rw [if_pos h0]; exact ⟨.ok _, hd⟩
  rw [if_neg h0]
  cases r.position with
  | none => exact ⟨.ok _, hd⟩
  | some p =>
    dsimp only
    by_cases hp : p + r.streamPosition < U64
    · rw [if_pos hp]
      have h1 := Dev.seekStart_quiet (p + r.streamPosition) d hd
      generalize Dev.seekStart (p + r.streamPosition) d = q at h1
      obtain ⟨x, d1⟩ := q
      cases x with
      | ok u =>
        dsimp only
        have h2 := Dev.read_quiet (min buf.length r.remainingLen) d1 h1.2
        generalize Dev.read (min buf.length r.remainingLen) d1 = q at h2
        obtain ⟨x, d2⟩ := q
        cases x with
        | ok b => exact ⟨.ok _, h2.2⟩
        | err e => exact ⟨h2.1.same, h2.2⟩
        | panic p => exact ⟨.panic _, h2.2⟩
        | diverge => exact ⟨.diverge, h2.2⟩
      | err e => exact ⟨h1.1.same, h1.2⟩
      | panic p => exact ⟨.panic _, h1.2⟩
      | diverge => exact ⟨.diverge, h1.2⟩
    · rw [if_neg hp]; exact ⟨.panic _, hd⟩

theorem readDataRun_quiet (s : StreamState) (buf : Bytes) (br : Nat) (d : Dev) (hd : d.Calm) :
    (s.readDataRun buf br d).1.Quiet ∧ (s.readDataRun buf br d).2.2.2.2.Calm := by
  unfold StreamState.readDataRun
  cases s.run with
  | none => exact ⟨.ok _, hd⟩
  | some r =>
    dsimp only
    by_cases h1 : r.streamPosition ≥ r.allocatedSize
    · rw [if_pos h1]; exact ⟨.ok _, hd⟩
    rw [if_neg h1]
    by_cases h2 : s.dataSize - s.streamPosition = 0
    · rw [if_pos h2]; exact ⟨.ok _, hd⟩
    rw [if_neg h2]
    generalize (buf.drop br).take (br + min (buf.length - br) (s.dataSize - s.streamPosition) - br) = sl
    have h := r.read_quiet sl d hd
    generalize r.read sl d = q at h
    obtain ⟨x, r', sl', d'⟩ := q
    cases x with
    | ok n =>
      dsimp only
      by_cases hn : n = 0
      · rw [if_pos hn]; exact ⟨.ok _, h.2⟩
      · rw [if_neg hn]; exact ⟨.ok _, h.2⟩
    | err e => exact ⟨h.1.same, h.2⟩
    | panic p => exact ⟨.panic _, h.2⟩
    | diverge => exact ⟨.diverge, h.2⟩

/-- A reader that does not report `Interrupted` on a device that never answers it, and keeps the length
of the buffer. -/
def QuietRead {σ : Type} (read : ReadFn (σ × Dev)) : Prop :=
  ∀ s d buf, d.Calm → (read (s, d) buf).1.Quiet ∧ (read (s, d) buf).2.1.2.Calm ∧
    (read (s, d) buf).2.2.length = buf.length

theorem NonRes.readLoop_quiet (fuel : Nat) (v : NonRes) (buf : Bytes) (br : Nat) (d : Dev) (hd : d.Calm) :
    (NonRes.readLoop fuel v buf br d).1.Quiet ∧ (NonRes.readLoop fuel v buf br d).2.2.2.Calm := by
  induction fuel generalizing v buf br d with
  | zero => exact ⟨.diverge, hd⟩
  | succ fuel ih =>
    unfold NonRes.readLoop
    by_cases hb : br < buf.length
    · rw [if_pos hb]
      have h := readDataRun_quiet v.st buf br d hd
      generalize v.st.readDataRun buf br d = q at h
      obtain ⟨x, st', buf', br', d'⟩ := q
      cases x with
      | ok b =>
        cases b with
        | true => exact ih _ _ _ _ h.2
        | false =>
          dsimp only
          have h2 := NonRes.nextDataRun_not_interrupted { v with st := st' }
          generalize NonRes.nextDataRun { v with st := st' } = q at h2
          obtain ⟨x, v'⟩ := q
          cases x with
          | ok b =>
            cases b with
            | true => exact ih _ _ _ _ h.2
            | false => exact ⟨.ok _, h.2⟩
          | err e => exact ⟨Res.Quiet.same h2, h.2⟩
          | panic p => exact ⟨.panic _, h.2⟩
          | diverge => exact ⟨.diverge, h.2⟩
      | err e => exact ⟨h.1.same, h.2⟩
      | panic p => exact ⟨.panic _, h.2⟩
      | diverge => exact ⟨.diverge, h.2⟩
    · rw [if_neg hb]; exact ⟨.ok _, hd⟩

theorem NonRes.readFn_quiet : QuietRead NonRes.readFn := by
  intro v d buf hd
  have h := NonRes.readLoop_quiet (buf.length + v.data.length + v.runs.data.length + 2) v buf 0 d hd
  obtain ⟨b, g1, g2, _⟩ := readLoop_contract (buf.length + v.data.length + v.runs.data.length + 2) v buf 0 d (by omega)
  refine ⟨h.1, h.2, ?_⟩
  show (NonRes.readLoop (buf.length + v.data.length + v.runs.data.length + 2) v buf 0 d).2.2.1.length = _
  rw [g2]
  exact overwrite_length (by omega)

theorem readExactLoop_quiet {σ : Type} {read : ReadFn (σ × Dev)} (h : QuietRead read) (fuel : Nat) (s : σ)
    (d : Dev) (done buf : Bytes) (hd : d.Calm) :
    (readExactLoop read fuel (s, d) done buf).1.Quiet ∧
      (readExactLoop read fuel (s, d) done buf).2.1.2.Calm := by
  induction fuel generalizing s d done buf with
  | zero => exact ⟨.diverge, hd⟩
  | succ fuel ih =>
    unfold readExactLoop
    by_cases hb : buf.length = 0
    · rw [if_pos hb]; exact ⟨.ok _, hd⟩
    rw [if_neg hb]
    have g := h s d buf hd
    generalize read (s, d) buf = q at g
    obtain ⟨x, ⟨s', d'⟩, buf'⟩ := q
    cases x with
    | ok n =>
      dsimp only
      by_cases hn : n = 0
      · rw [if_pos hn]; exact ⟨.err (by noint), g.2.1⟩
      rw [if_neg hn]
      by_cases hl : n ≤ buf'.length
      · rw [if_pos hl]; exact ih _ _ _ _ g.2.1
      · rw [if_neg hl]; exact ⟨.panic _, g.2.1⟩
    | err e =>
      dsimp only
      rw [if_neg fun h => g.1 (by rw [h])]
      exact ⟨g.1.same, g.2.1⟩
    | panic p => exact ⟨.panic _, g.2.1⟩
    | diverge => exact ⟨.diverge, g.2.1⟩

/-- The schedule of the device does not matter for how many rounds `read_exact` needs. -/
theorem readExactLoop_fuel {σ : Type} {read : ReadFn (σ × Dev)} (h : QuietRead read) (m fuel : Nat) (s : σ)
    (d : Dev) (done buf : Bytes) (hd : d.Calm) (hf : buf.length < fuel) :
    readExactLoop read (fuel + m) (s, d) done buf = readExactLoop read fuel (s, d) done buf := by
  induction fuel generalizing s d done buf with
  | zero => omega
  | succ fuel ih =>
    have e : fuel + 1 + m = (fuel + m) + 1 := by omega
    rw [e]
    unfold readExactLoop
    by_cases hb : buf.length = 0
    · rw [if_pos hb, if_pos hb]
    rw [if_neg hb, if_neg hb]
    have g := h s d buf hd
    generalize read (s, d) buf = q at g
    obtain ⟨x, ⟨s', d'⟩, buf'⟩ := q
    cases x with
    | ok n =>
      dsimp only at g ⊢
      by_cases hn : n = 0
      · rw [if_pos hn, if_pos hn]
      rw [if_neg hn, if_neg hn]
      by_cases hl : n ≤ buf'.length
      · rw [if_pos hl, if_pos hl]
        exact ih _ _ _ _ g.2.1 (by rw [List.length_drop]; omega)
      · rw [if_neg hl, if_neg hl]
    | err e =>
      dsimp only
      have : ¬ e = .io .interrupted := fun h => g.1 (by rw [h])
      rw [if_neg this, if_neg this]
    | panic p => rfl
    | diverge => rfl

theorem Err.viaIo_quiet {e : Err} (h : e ≠ .io .interrupted) : e.viaIo ≠ .io .interrupted := by
  cases e
  case io e => exact h
  all_goals exact fun h => by cases h

theorem NonRes.readExactAttached_quiet (n : Nat) : (NonRes.readExactAttached n).Quiet := by
  rintro ⟨v, d⟩ hd
  unfold NonRes.readExactAttached NonRes.readExact
  dsimp only
  have h := readExactLoop_quiet NonRes.readFn_quiet ((List.replicate n (0 : UInt8)).length + d.sched.length + 1)
    v d [] (List.replicate n 0) hd
  generalize readExactLoop NonRes.readFn ((List.replicate n (0 : UInt8)).length + d.sched.length + 1) (v, d) []
    (List.replicate n 0) = q at h
  obtain ⟨x, ⟨v', d'⟩, b⟩ := q
  cases x with
  | ok u => exact ⟨.ok _, h.2⟩
  | err e => exact ⟨.err (Err.viaIo_quiet fun h' => h.1 (by rw [h'])), h.2⟩
  | panic p => exact ⟨.panic _, h.2⟩
  | diverge => exact ⟨.diverge, h.2⟩

/-! ### Files and attribute lists -/

theorem NFile.new_quiet (n : Ntfs) (p i : Nat) : (NFile.new n p i).Quiet :=
  .bind (Dev.seekStart_quiet _) fun _ => .bind (Dev.readExact_quiet _) fun _ => .lift (NFile.ofBytes_quiet _ _ _ _)

theorem Ntfs.file_quiet (n : Ntfs) (i : Nat) : (n.file i).Quiet := by
  unfold Ntfs.file
  refine .bind (.lift (.ofOption (by noint) _)) fun o => ?_
  cases n.mftPosition with
  | none => exact .die _
  | some p =>
    refine .bind (NFile.new_quiet _ _ _) fun mft => .bind (.lift (NFile.findResidentAttribute_quiet _ _ _ _))
      fun a => .bind (.lift a.simpleValue_quiet) fun v => ?_
    have h := v.seek_quiet (.start o)
    generalize v.seek (.start o) = q at h
    obtain ⟨x, v'⟩ := q
    cases x with
    | ok x =>
      dsimp only
      cases v'.dataPosition with
      | none => exact .fail (by noint)
      | some p => exact NFile.new_quiet _ _ _
    | err x => exact .fail fun h' => h (by rw [h'])
    | panic x => exact .die _
    | diverge => exact .lift .diverge

theorem ListEntry.new_quiet {S : Type} [OnDevice S] {re : Nat → StM S Bytes} (h : ∀ n, (re n).Quiet)
    (p : Pos) : (ListEntry.new re p).Quiet :=
  .bind (h _) fun _ => .bind (.lift (.bind (readLE_quiet _ _ _) fun _ => .bind (readLE_quiet _ _ _) fun _ =>
    .bind (idxByte_quiet _ _) fun _ => .bind (readLE_quiet _ _ _) fun _ => .bind (idxRange_quiet _ _ _) fun _ =>
    .bind (readLE_quiet _ _ _) fun _ => .ok _)) fun _ => .bind (.lift (.ite (.err (by noint)) (.ok _))) fun _ =>
    .bind (h _) fun _ => .pure _

theorem AttrList.next_quiet : AttrList.next.Quiet := by
  rintro ⟨l, d⟩ hd
  cases l with
  | resident s p =>
    rw [C24_arbitrary_resident]
    repeat' split
    all_goals first
      | exact ⟨.ok _, hd⟩
      | exact ⟨.err (by noint), hd⟩
  | nonResident v =>
    unfold AttrList.next AttrList.nextNonResident
    dsimp only
    by_cases hv : v.streamPosition ≥ v.len
    · rw [if_pos hv]; exact ⟨.ok _, hd⟩
    rw [if_neg hv]
    have h := ListEntry.new_quiet NonRes.readExactAttached_quiet v.dataPosition (v, d) hd
    generalize ListEntry.new NonRes.readExactAttached v.dataPosition (v, d) = q at h
    obtain ⟨x, ⟨v', d'⟩⟩ := q
    cases x with
    | ok e =>
      dsimp only
      have h2 := v.seek_quiet (.current e.length)
      generalize v.seek (.current e.length) = q at h2
      obtain ⟨x, w⟩ := q
      cases x with
      | ok m => exact ⟨.ok _, h.2⟩
      | err e => exact ⟨h2.same, h.2⟩
      | panic p => exact ⟨.panic _, h.2⟩
      | diverge => exact ⟨.diverge, h.2⟩
    | err e => exact ⟨h.1.same, h.2⟩
    | panic p => exact ⟨.panic _, h.2⟩
    | diverge => exact ⟨.diverge, h.2⟩

theorem ListEntry.ty_quiet (e : ListEntry) : e.ty.Quiet := .ofOption (by noint) _

theorem ListEntry.toAttribute_quiet (e : ListEntry) (f : NFile) : (e.toAttribute f).Quiet :=
  .ite (.bind e.ty_quiet fun _ => NFile.findResidentAttribute_quiet _ _ _ _) (.panic _)

theorem ALVal.nextConnected_quiet : ALVal.nextConnected.Quiet := by
  rintro ⟨v, d⟩ hd
  unfold ALVal.nextConnected
  dsimp only
  cases v.connected with
  | none => exact ⟨.ok _, hd⟩
  | some l =>
    dsimp only
    have h := AttrList.next_quiet (l, d) hd
    generalize AttrList.next (l, d) = q at h
    obtain ⟨x, ⟨l', d'⟩⟩ := q
    cases x with
    | ok o =>
      cases o with
      | none => exact ⟨.ok _, h.2⟩
      | some e =>
        dsimp only
        by_cases hi : e.inst = v.inst
        · rw [if_pos hi]
          have ht := e.ty_quiet
          generalize e.ty = t at ht
          cases t with
          | ok t =>
            dsimp only
            by_cases hv : t = v.ty
            · rw [if_pos hv]; exact ⟨.ok _, h.2⟩
            · rw [if_neg hv]; exact ⟨.ok _, h.2⟩
          | err x => exact ⟨ht.same, h.2⟩
          | panic x => exact ⟨.panic _, h.2⟩
          | diverge => exact ⟨.diverge, h.2⟩
        · rw [if_neg hi]; exact ⟨.ok _, h.2⟩
    | err x => exact ⟨h.1.same, h.2⟩
    | panic x => exact ⟨.panic _, h.2⟩
    | diverge => exact ⟨.diverge, h.2⟩

theorem ALVal.openEntry_quiet (n : Ntfs) (e : ListEntry) : (ALVal.openEntry n e).Quiet := by
  unfold ALVal.openEntry
  refine .bind (Ntfs.file_quiet _ _) fun f => .bind (.lift (e.toAttribute_quiet f)) fun a =>
    .bind (.lift a.isResident_quiet) fun b => ?_
  refine .ite (.fail (by noint)) (.bind (.lift a.nonResidentValueDataAndPosition_quiet) fun x => ?_)
  obtain ⟨data, p⟩ := x
  dsimp only
  have h := DataRuns.next_not_interrupted (DataRuns.new n.clusterSize data p)
  generalize (DataRuns.new n.clusterSize data p).next = q at h
  obtain ⟨x, runs⟩ := q
  cases x with
  | none => exact .pure _
  | some r => exact .bind (.lift fun h' => h (by rw [h'])) fun _ => .pure _

theorem ALVal.nextAttribute_quiet : ALVal.nextAttribute.Quiet := by
  unfold ALVal.nextAttribute
  refine .bind ALVal.nextConnected_quiet fun o => ?_
  cases o with
  | none => exact .pure _
  | some e =>
    rintro ⟨v, d⟩ hd
    dsimp only
    have h := ALVal.openEntry_quiet v.ntfs e d hd
    generalize ALVal.openEntry v.ntfs e d = q at h
    obtain ⟨x, d'⟩ := q
    cases x with
    | ok o => cases o <;> exact ⟨.ok _, h.2⟩
    | err x => exact ⟨h.1.same, h.2⟩
    | panic x => exact ⟨.panic _, h.2⟩
    | diverge => exact ⟨.diverge, h.2⟩

theorem ALVal.nextDataRun_quiet (v : ALVal) : v.nextDataRun.1.Quiet := by
  unfold ALVal.nextDataRun
  cases v.attrState with
  | none => exact .ok _
  | some a =>
    dsimp only
    cases a.runs with
    | none => exact .ok _
    | some s =>
      dsimp only
      have h : Res.Quiet (do let at_ ← Attr.new a.file a.offset none; at_.nonResidentValueDataAndPosition :
          Res (Bytes × Pos)) := .bind (Attr.new_quiet _ _ _) fun x => x.nonResidentValueDataAndPosition_quiet
      generalize (do let at_ ← Attr.new a.file a.offset none; at_.nonResidentValueDataAndPosition :
          Res (Bytes × Pos)) = r at h
      cases r with
      | ok x =>
        obtain ⟨data, p⟩ := x
        dsimp only
        have h := DataRuns.next_not_interrupted (DataRuns.fromState v.ntfs.clusterSize data p s)
        generalize (DataRuns.fromState v.ntfs.clusterSize data p s).next = q at h
        obtain ⟨x, runs⟩ := q
        cases x with
        | none => exact .ok _
        | some r =>
          cases r with
          | ok r => exact .ok _
          | err e => exact .err fun h' => h (by rw [h'])
          | panic x => exact .panic _
          | diverge => exact .diverge
      | err x => exact h.same
      | panic x => exact .panic _
      | diverge => exact .diverge

theorem ALVal.advance_quiet (v : ALVal) (d : Dev) (hd : d.Calm) :
    (v.advance d).1.Quiet ∧ (v.advance d).2.2.Calm := by
  unfold ALVal.advance
  have h := v.nextDataRun_quiet
  generalize v.nextDataRun = q at h
  obtain ⟨x, v'⟩ := q
  cases x with
  | ok b =>
    cases b with
    | true => exact ⟨.ok _, hd⟩
    | false => exact ALVal.nextAttribute_quiet (v', d) hd
  | err x => exact ⟨h.same, hd⟩
  | panic x => exact ⟨.panic _, hd⟩
  | diverge => exact ⟨.diverge, hd⟩

theorem ALVal.readLoop_quiet (fuel : Nat) (v : ALVal) (buf : Bytes) (br : Nat) (d : Dev) (hd : d.Calm) :
    (ALVal.readLoop fuel v buf br d).1.Quiet ∧ (ALVal.readLoop fuel v buf br d).2.2.2.Calm := by
  induction fuel generalizing v buf br d with
  | zero => exact ⟨.diverge, hd⟩
  | succ fuel ih =>
    unfold ALVal.readLoop
    by_cases hb : br < buf.length
    · rw [if_pos hb]
      have h := readDataRun_quiet v.st buf br d hd
      generalize v.st.readDataRun buf br d = q at h
      obtain ⟨x, st', buf', br', d'⟩ := q
      cases x with
      | ok b =>
        cases b with
        | true => exact ih _ _ _ _ h.2
        | false =>
          dsimp only
          have h2 := ALVal.advance_quiet { v with st := st' } d' h.2
          generalize ALVal.advance { v with st := st' } d' = q at h2
          obtain ⟨x, v', d''⟩ := q
          cases x with
          | ok b =>
            cases b with
            | true => exact ih _ _ _ _ h2.2
            | false => exact ⟨.ok _, h2.2⟩
          | err e => exact ⟨h2.1.same, h2.2⟩
          | panic p => exact ⟨.panic _, h2.2⟩
          | diverge => exact ⟨.diverge, h2.2⟩
      | err e => exact ⟨h.1.same, h.2⟩
      | panic p => exact ⟨.panic _, h.2⟩
      | diverge => exact ⟨.diverge, h.2⟩
    · rw [if_neg hb]; exact ⟨.ok _, hd⟩

theorem Val.readFn_quiet : QuietRead Val.readFn := by
  intro v d buf hd
  match v with
  | .simple (.res r) =>
    show (r.read buf).1.Quiet ∧ d.Calm ∧ (r.read buf).2.2.length = _
    rw [ResVal.read_eq]
    refine ⟨.ok _, hd, ?_⟩
    dsimp only
    rw [List.length_append, List.length_take, List.length_drop, List.length_drop]
    omega
  | .simple (.nonRes v) => exact NonRes.readFn_quiet v d buf hd
  | .list v =>
    have h := ALVal.readLoop_quiet (buf.length + v.runFuel + v.leftFuel) v buf 0 d hd
    obtain ⟨b, g1, g2, _⟩ := ALVal.readLoop_contract (buf.length + v.runFuel + v.leftFuel) v buf 0 d (by omega)
    refine ⟨h.1, h.2, ?_⟩
    show (ALVal.readLoop (buf.length + v.runFuel + v.leftFuel) v buf 0 d).2.2.1.length = _
    rw [g2]
    exact overwrite_length (by omega)

end NT
