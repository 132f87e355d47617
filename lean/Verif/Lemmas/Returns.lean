import Verif.Lemmas.Quiet
import Verif.Props.C18_Attributes
import Verif.Lemmas.Split

/-! Every loop of the library that is not a walk through an index ends on every image and every device:
none of the results below is `diverge`. The invariants (`Sane`) are those of every state that can be
reached; they do not say that anything is well-formed. -/

namespace NT

open Spec

/-- The operation comes back: with a value, an error or a panic. -/
def Res.Returns {α : Type} (x : Res α) : Prop := x ≠ .diverge

namespace Res.Returns

theorem ok {α : Type} (a : α) : Res.Returns (.ok a) := fun h => by cases h
theorem err {α : Type} (e : Err) : Res.Returns (.err e : Res α) := fun h => by cases h
theorem panic {α : Type} (p : Panic) : Res.Returns (.panic p : Res α) := fun h => by cases h

theorem bind {α β : Type} {x : Res α} {f : α → Res β} (hx : x.Returns) (hf : ∀ a, x = .ok a → (f a).Returns) :
    (x >>= f).Returns := by
  cases x with
  | ok a => exact hf a rfl
  | err e => exact err e
  | panic p => exact panic p
  | diverge => exact absurd rfl hx

theorem ite {α : Type} {c : Prop} [Decidable c] {x y : Res α} (hx : x.Returns) (hy : y.Returns) :
    (if c then x else y).Returns := by
  split
  · exact hx
  · exact hy

theorem ofOption {α : Type} (e : Err) (o : Option α) : (Res.ofOption e o).Returns := by
  cases o with
  | none => exact err e
  | some a => exact ok a

end Res.Returns

theorem readLE_returns (n : Nat) (d : Bytes) (a : Nat) : (readLE n d a).Returns :=
  .ite (.ok _) (.panic _)

theorem idxRange_returns (d : Bytes) (a b : Nat) : (idxRange d a b).Returns := by
  unfold idxRange
  cases getRange d a b with
  | none => exact .panic _
  | some x => exact .ok _

theorem idxByte_returns (d : Bytes) (i : Nat) : (idxByte d i).Returns := by
  unfold idxByte
  cases d[i]? with
  | none => exact .panic _
  | some x => exact .ok _

/-! ### Records and attributes -/

theorem Record.fixupLoop_returns (p : Pos) (usn : Bytes) (n : Nat) (data : Bytes) (a s : Nat) :
    (Record.fixupLoop p usn n data a s).Returns := by
  induction n generalizing data a s with
  | zero => exact .ok _
  | succ n ih =>
    exact .bind (idxRange_returns _ _ _) fun _ _ => .bind (idxRange_returns _ _ _) fun _ _ =>
      .ite (.err _) (ih _ _ _)

theorem Record.fixup_returns (r : Record) : r.fixup.Returns := by
  have h1 : r.usNumber.Returns := by
    refine .bind (readLE_returns _ _ _) fun x _ => ?_
    cases getRange r.data x (x + 2) with
    | none => exact .err _
    | some b => exact .ok _
  have h2 : r.usOffset.Returns := readLE_returns _ _ _
  exact .bind h1 fun _ _ => .bind (.bind (readLE_returns _ _ _) fun _ _ => .ofOption _ _) fun _ _ =>
    .bind (.bind h2 fun _ _ => .ite (.ok _) (.panic _)) fun _ _ => .bind h2 fun _ _ =>
    .bind (.bind (readLE_returns _ _ _) fun _ _ => .ok _) fun _ _ =>
    .ite (.err _) (.bind (Record.fixupLoop_returns _ _ _ _ _ _) fun _ _ => .ok _)

theorem NFile.ofBytes_returns (n : Ntfs) (b : Bytes) (p i : Nat) : (NFile.ofBytes n b p i).Returns := by
  refine .bind (.bind (idxRange_returns _ _ _) fun _ _ => .ite (.ok _) (.err _)) fun _ _ =>
    .bind (Record.fixup_returns _) fun _ _ => .bind ?_ fun _ _ => .ok _
  exact .bind (readLE_returns _ _ _) fun _ _ => .ite (.err _)
    (.bind (readLE_returns _ _ _) fun _ _ => .ite (.err _) (.ok _))

theorem Attr.isResident_returns (a : Attr) : a.isResident.Returns :=
  .bind (idxByte_returns _ _) fun _ _ => .ok _

theorem Attr.assertResident_returns (a : Attr) : a.assertResident.Returns :=
  .bind a.isResident_returns fun _ _ => .ite (.ok _) (.panic _)

theorem Attr.assertNonResident_returns (a : Attr) : a.assertNonResident.Returns :=
  .bind a.isResident_returns fun _ _ => .ite (.panic _) (.ok _)

theorem Attr.new_returns (f : NFile) (o : Nat) (l : Option AttrList) : (Attr.new f o l).Returns := by
  refine .bind ?_ fun _ _ => .ok _
  exact .ite (.err _) (.bind (readLE_returns _ _ _) fun _ _ => .ite (.err _) (.ite (.err _) (.ok _)))

theorem Attr.ty_returns (a : Attr) : a.ty.Returns :=
  .bind (readLE_returns _ _ _) fun _ _ => .ofOption _ _

theorem Attr.ensureTy_returns (a : Attr) (t : AttrType) : (a.ensureTy t).Returns :=
  .bind a.ty_returns fun _ _ => .ite (.err _) (.ok _)

theorem Attr.name_returns (a : Attr) : a.name.Returns := by
  have h1 : a.nameOffset.Returns := readLE_returns _ _ _
  have h2 : a.nameLength.Returns := .bind (idxByte_returns _ _) fun _ _ => .ok _
  refine .bind h1 fun _ _ => .bind h2 fun _ _ => .ite (.ok _) (.bind ?_ fun _ _ => idxRange_returns _ _ _)
  exact .bind h1 fun _ _ => .bind (readLE_returns _ _ _) fun _ _ => .ite (.err _)
    (.bind h2 fun _ _ => .ite (.err _) (.ok _))

theorem Attr.nonResidentValueDataSize_returns (a : Attr) : a.nonResidentValueDataSize.Returns :=
  .bind a.assertNonResident_returns fun _ _ => readLE_returns _ _ _

theorem Attr.nonResidentValueDataAndPosition_returns (a : Attr) :
    a.nonResidentValueDataAndPosition.Returns :=
  .bind a.assertNonResident_returns fun _ _ =>
    .bind (.bind a.assertNonResident_returns fun _ _ => readLE_returns _ _ _) fun _ _ =>
    .bind (readLE_returns _ _ _) fun _ _ => .bind (.ofOption _ _) fun _ _ => .ok _

theorem Attr.residentValue_returns (a : Attr) : a.residentValue.Returns := by
  have h1 : a.residentValueOffset.Returns := .bind a.assertResident_returns fun _ _ => readLE_returns _ _ _
  have h2 : a.residentValueLength.Returns := .bind a.assertResident_returns fun _ _ => readLE_returns _ _ _
  have h3 : a.validateResidentValueSizes.Returns :=
    .bind a.assertResident_returns fun _ _ => .bind (readLE_returns _ _ _) fun _ _ => .bind h1 fun _ _ =>
      .ite (.err _) (.bind h2 fun _ _ => .ite (.ite (.err _) (.ok _)) (.err _))
  exact .bind a.assertResident_returns fun _ _ => .bind h3 fun _ _ => .bind h1 fun _ _ => .bind h2 fun _ _ =>
      .bind (idxRange_returns _ _ _) fun _ _ => .ok _

/-! ### Non-resident values -/

/-- What every non-resident value has: its iterator works on its own data run information. -/
structure NonRes.Sane (v : NonRes) : Prop where
  data : v.runs.data = v.data
  lcn : v.runs.state.previousLcn < U64

/-- The data run information that is still to be read. -/
def NonRes.runsLeft (v : NonRes) : Nat := v.data.length - v.runs.state.offset

theorem NonRes.nextDataRun_sane {v : NonRes} (h : v.Sane) :
    v.nextDataRun.1.Returns ∧ v.nextDataRun.2.Sane ∧ v.nextDataRun.2.data = v.data ∧
      (v.nextDataRun.1 = .ok true → v.nextDataRun.2.runsLeft < v.runsLeft) := by
  have hd := v.runs.next_data h.lcn
  unfold NonRes.nextDataRun NonRes.runsLeft
  rcases v.runs.next_cases h.lcn with ⟨r', h', h2, h3, h4⟩ | ⟨e, h'⟩ | ⟨l, h', _⟩ |
      ⟨x, o, l, h', h2, h3, h4, _⟩ <;> rw [h'] at hd ⊢ <;> dsimp only at hd ⊢
  · exact ⟨.ok _, ⟨by rw [← h.data]; exact hd.1, hd.2.2⟩, rfl, fun h => by cases h⟩
  · exact ⟨.err _, h, rfl, fun h => by cases h⟩
  · exact ⟨.err _, ⟨h.data, hd.2.2⟩, rfl, fun h => by cases h⟩
  · refine ⟨.ok _, ⟨h.data, hd.2.2⟩, rfl, fun _ => ?_⟩
    rw [h.data] at h3
    omega

theorem NonRes.readLoop_returns (fuel : Nat) (v : NonRes) (buf : Bytes) (br : Nat) (d : Dev) (hv : v.Sane)
    (hbr : br ≤ buf.length) (hf : buf.length - br + v.runsLeft < fuel) :
    (NonRes.readLoop fuel v buf br d).1.Returns ∧ (NonRes.readLoop fuel v buf br d).2.1.Sane ∧
      (NonRes.readLoop fuel v buf br d).2.1.data = v.data := by
  induction fuel generalizing v buf br d with
  | zero => omega
  | succ fuel ih =>
    unfold NonRes.readLoop
    by_cases hlt : br < buf.length
    case neg => rw [if_neg hlt]; exact ⟨.ok _, hv, rfl⟩
    rw [if_pos hlt]
    rcases readDataRun_cases v.st buf br d hbr with ⟨s', b, d', e, h1, h2, h3⟩ | ⟨e, d', he⟩ | ⟨e, _⟩
    · rw [e]
      have hv' : NonRes.Sane { v with st := s' } := ⟨hv.data, hv.lcn⟩
      by_cases hb0 : 0 < b.length
      · rw [show (decide (0 < b.length)) = true from by simpa using hb0]
        dsimp only
        have hol : (overwrite buf br b).length = buf.length := overwrite_length h1
        exact ih _ _ _ _ hv' (by omega) (by rw [hol]; simp only [NonRes.runsLeft] at *; omega)
      · rw [show (decide (0 < b.length)) = false from by simpa using hb0]
        have hbn : b = [] := List.eq_nil_of_length_eq_zero (by omega)
        subst hbn
        rw [overwrite_nil]
        dsimp only
        have hn := NonRes.nextDataRun_sane hv'
        generalize NonRes.nextDataRun { v with st := s' } = q at hn
        obtain ⟨x, v'⟩ := q
        obtain ⟨n1, n2, n3, n4⟩ := hn
        cases x with
        | ok t =>
          cases t with
          | true =>
            have := n4 rfl
            obtain ⟨i1, i2, i3⟩ := ih v' buf (br + 0) d' n2 hbr (by simp only [NonRes.runsLeft] at *; omega)
            exact ⟨i1, i2, i3.trans n3⟩
          | false => exact ⟨.ok _, n2, n3⟩
        | err e => exact ⟨.err _, n2, n3⟩
        | panic e => exact ⟨.panic _, n2, n3⟩
        | diverge => exact absurd rfl n1
    · rw [he]; exact ⟨.err _, ⟨hv.data, hv.lcn⟩, rfl⟩
    · rw [e]; exact ⟨.panic _, ⟨hv.data, hv.lcn⟩, rfl⟩

theorem NonRes.read_returns {v : NonRes} (hv : v.Sane) (buf : Bytes) (d : Dev) :
    (v.read buf d).1.Returns ∧ (v.read buf d).2.1.Sane ∧ (v.read buf d).2.1.data = v.data :=
  NonRes.readLoop_returns _ v buf 0 d hv (Nat.zero_le _) (by unfold NonRes.runsLeft; omega)

theorem seekContiguous_returns (s l : Nat) (pos : SeekFrom) : (seekContiguous s l pos).1.Returns := by
  unfold seekContiguous
  repeat' split
  all_goals first | exact .ok _ | exact .err _

theorem optimizeSeek_returns (s : StreamState) (pos : SeekFrom) (n : Nat) :
    (s.optimizeSeek pos n).Returns := by
  have h : (s.simplifySeek pos n).Returns := by
    unfold StreamState.simplifySeek
    repeat' split
    all_goals first | exact .ok _ | exact .err _
  unfold StreamState.optimizeSeek
  repeat' split
  all_goals first | exact .ok _ | exact h

theorem seekDataRun_returns (s : StreamState) (pos : SeekFrom) (left : Nat) :
    (s.seekDataRun pos left).1.Returns := by
  unfold StreamState.seekDataRun
  cases s.run with
  | none => exact .ok _
  | some r =>
    dsimp only
    by_cases h : left < r.remainingLen
    · rw [if_pos h]
      have hq : ∀ p, (r.seek p).1.Returns := fun p => seekContiguous_returns _ _ _
      cases pos with
      | start n =>
        dsimp only
        have hp := hq (.start left)
        generalize r.seek (.start left) = q at hp
        obtain ⟨x, r'⟩ := q
        cases x with
        | ok n => exact .ok _
        | err e => exact .err _
        | panic p => exact .panic _
        | diverge => exact absurd rfl hp
      | current n =>
        dsimp only
        have hp := hq (.current (toI64 left))
        generalize r.seek (.current (toI64 left)) = q at hp
        obtain ⟨x, r'⟩ := q
        cases x with
        | ok n => exact .ok _
        | err e => exact .err _
        | panic p => exact .panic _
        | diverge => exact absurd rfl hp
      | end_ n => exact .panic _
    · rw [if_neg h]; exact .ok _

theorem NonRes.seekLoop_returns (fuel : Nat) (v : NonRes) (pos : SeekFrom) (left : Nat) (hv : v.Sane)
    (hf : v.runsLeft < fuel) :
    (NonRes.seekLoop fuel v pos left).1.Returns ∧ (NonRes.seekLoop fuel v pos left).2.Sane ∧
      (NonRes.seekLoop fuel v pos left).2.data = v.data := by
  induction fuel generalizing v left with
  | zero => omega
  | succ fuel ih =>
    unfold NonRes.seekLoop
    by_cases hl : left > 0
    case neg => rw [if_neg hl]; exact ⟨.ok _, hv, rfl⟩
    rw [if_pos hl]
    have h1 := seekDataRun_returns v.st pos left
    generalize v.st.seekDataRun pos left = q at h1
    obtain ⟨x, st', left'⟩ := q
    have hv' : NonRes.Sane { v with st := st' } := ⟨hv.data, hv.lcn⟩
    cases x with
    | ok b =>
      cases b with
      | true => exact ⟨.ok _, hv', rfl⟩
      | false =>
        dsimp only
        have hn := NonRes.nextDataRun_sane hv'
        generalize NonRes.nextDataRun { v with st := st' } = q at hn
        obtain ⟨x, v'⟩ := q
        obtain ⟨n1, n2, n3, n4⟩ := hn
        cases x with
        | ok t =>
          cases t with
          | true =>
            have := n4 rfl
            obtain ⟨i1, i2, i3⟩ := ih v' left' n2 (by simp only [NonRes.runsLeft] at *; omega)
            exact ⟨i1, i2, i3.trans n3⟩
          | false => exact ⟨.ok _, ⟨n2.data, n2.lcn⟩, n3⟩
        | err e => exact ⟨.err _, n2, n3⟩
        | panic e => exact ⟨.panic _, n2, n3⟩
        | diverge => exact absurd rfl n1
    | err e => exact ⟨.err _, hv', rfl⟩
    | panic e => exact ⟨.panic _, hv', rfl⟩
    | diverge => exact absurd rfl h1

theorem NonRes.rewind_returns {v : NonRes} (_ : v.Sane) :
    v.rewind.1.Returns ∧ v.rewind.2.Sane ∧ v.rewind.2.data = v.data := by
  unfold NonRes.rewind
  have h : NonRes.Sane { v with runs := v.dataRuns, st := StreamState.new v.len } := ⟨rfl, show (0 : Nat) < U64 by decide⟩
  have hn := NonRes.nextDataRun_sane h
  generalize NonRes.nextDataRun { v with runs := v.dataRuns, st := StreamState.new v.len } = q at hn
  obtain ⟨x, v'⟩ := q
  obtain ⟨n1, n2, n3, n4⟩ := hn
  cases x with
  | ok t => exact ⟨.ok _, n2, n3⟩
  | err e => exact ⟨.err _, n2, n3⟩
  | panic e => exact ⟨.panic _, n2, n3⟩
  | diverge => exact absurd rfl n1

theorem NonRes.seek_returns {v : NonRes} (hv : v.Sane) (pos : SeekFrom) :
    (v.seek pos).1.Returns ∧ (v.seek pos).2.Sane ∧ (v.seek pos).2.data = v.data := by
  unfold NonRes.seek
  have h0 := optimizeSeek_returns v.st pos v.len
  cases ho : v.st.optimizeSeek pos v.len with
  | err e => exact ⟨.err _, hv, rfl⟩
  | panic p => exact ⟨.panic _, hv, rfl⟩
  | diverge => exact absurd ho h0
  | ok x =>
    cases x with
    | end_ n => exact ⟨.panic _, hv, rfl⟩
    | start n =>
      dsimp only
      have h1 := NonRes.rewind_returns hv
      generalize v.rewind = q at h1
      obtain ⟨x, v1⟩ := q
      obtain ⟨r1, r2, r3⟩ := h1
      cases x with
      | ok u =>
        dsimp only at r2 r3 ⊢
        have h2 := NonRes.seekLoop_returns (v.data.length + 2) v1 (.start n) n r2
          (by rw [NonRes.runsLeft, r3]; omega)
        generalize NonRes.seekLoop (v.data.length + 2) v1 (.start n) n = q at h2
        obtain ⟨x, v2⟩ := q
        obtain ⟨s1, s2, s3⟩ := h2
        cases x with
        | ok u => exact ⟨.ok _, ⟨s2.data, s2.lcn⟩, s3.trans r3⟩
        | err e => exact ⟨.err _, s2, s3.trans r3⟩
        | panic p => exact ⟨.panic _, s2, s3.trans r3⟩
        | diverge => exact absurd rfl s1
      | err e => exact ⟨.err _, r2, r3⟩
      | panic p => exact ⟨.panic _, r2, r3⟩
      | diverge => exact absurd rfl r1
    | current n =>
      dsimp only
      by_cases hn : 0 ≤ n
      · rw [if_pos hn]
        have h2 := NonRes.seekLoop_returns (v.data.length + 2) v (.current n) n.toNat hv
          (by rw [NonRes.runsLeft]; omega)
        generalize NonRes.seekLoop (v.data.length + 2) v (.current n) n.toNat = q at h2
        obtain ⟨x, v2⟩ := q
        obtain ⟨s1, s2, s3⟩ := h2
        cases x with
        | ok u =>
          dsimp only at s2 s3 ⊢
          by_cases hu : v2.st.streamPosition + n.toNat < U64
          · rw [if_pos hu]; exact ⟨.ok _, ⟨s2.data, s2.lcn⟩, s3⟩
          · rw [if_neg hu]; exact ⟨.panic _, s2, s3⟩
        | err e => exact ⟨.err _, s2, s3⟩
        | panic p => exact ⟨.panic _, s2, s3⟩
        | diverge => exact absurd rfl s1
      · rw [if_neg hn]; exact ⟨.panic _, hv, rfl⟩

theorem NonRes.new_returns (cs : Nat) (data : Bytes) (p : Pos) (size : Nat) :
    (NonRes.new cs data p size).Returns ∧ ∀ v, NonRes.new cs data p size = .ok v → v.Sane := by
  unfold NonRes.new
  dsimp only
  have h : NonRes.Sane ⟨cs, data, p, DataRuns.new cs data p, StreamState.new size⟩ := ⟨rfl, show (0 : Nat) < U64 by decide⟩
  have hn := NonRes.nextDataRun_sane h
  generalize NonRes.nextDataRun _ = q at hn
  obtain ⟨x, v'⟩ := q
  obtain ⟨n1, n2, _⟩ := hn
  cases x with
  | ok t => exact ⟨.ok _, fun v h => by cases h; exact n2⟩
  | err e => exact ⟨.err _, fun v h => by cases h⟩
  | panic e => exact ⟨.panic _, fun v h => by cases h⟩
  | diverge => exact absurd rfl n1

/-! ### `read_exact` -/

/-- `read_exact` over any reader that stays in `P`, returns there, and when interrupted has used up an
entry of the schedule. -/
theorem readExactLoop_returns {σ : Type} (read : ReadFn (σ × Dev)) (P : σ → Prop)
    (h : ∀ s d buf, P s → (read (s, d) buf).1.Returns ∧ P (read (s, d) buf).2.1.1 ∧
      (read (s, d) buf).2.2.length = buf.length ∧ Uses d (read (s, d) buf).1 (read (s, d) buf).2.1.2)
    (fuel : Nat) (s : σ) (d : Dev) (done buf : Bytes) (hP : P s) (hf : buf.length + d.sched.length < fuel) :
    (readExactLoop read fuel (s, d) done buf).1.Returns ∧ P (readExactLoop read fuel (s, d) done buf).2.1.1 ∧
      Uses d (readExactLoop read fuel (s, d) done buf).1 (readExactLoop read fuel (s, d) done buf).2.1.2 ∧
      (readExactLoop read fuel (s, d) done buf).1.Quiet := by
  induction fuel generalizing s d done buf with
  | zero => omega
  | succ fuel ih =>
    unfold readExactLoop
    by_cases hb : buf.length = 0
    · rw [if_pos hb]; exact ⟨.ok _, hP, .refl_ok _ _, .ok _⟩
    rw [if_neg hb]
    obtain ⟨h1, h2, h3, h4⟩ := h s d buf hP
    generalize read (s, d) buf = q at h1 h2 h3 h4
    obtain ⟨x, ⟨s', d'⟩, buf'⟩ := q
    dsimp only at h1 h2 h3 h4
    cases x with
    | ok n =>
      dsimp only
      split
      · exact ⟨.err _, h2, ⟨h4.1, fun h => by cases h⟩, fun h => by cases h⟩
      · split
        · have := h4.1
          obtain ⟨i1, i2, i3, i4⟩ := ih s' d' (done ++ buf'.take n) (buf'.drop n) h2
            (by rw [List.length_drop]; omega)
          exact ⟨i1, i2, h4.trans i3, i4⟩
        · exact ⟨.panic _, h2, ⟨h4.1, fun h => by cases h⟩, .panic _⟩
    | err e =>
      dsimp only
      split
      · rename_i he
        subst he
        have := h4.2 rfl
        obtain ⟨i1, i2, i3, i4⟩ := ih s' d' done buf' h2 (by omega)
        exact ⟨i1, i2, h4.trans i3, i4⟩
      · rename_i he
        exact ⟨.err _, h2, ⟨h4.1, fun h => by injection h with h; exact absurd h he⟩, .err he⟩
    | panic p => exact ⟨.panic _, h2, ⟨h4.1, fun h => by cases h⟩, .panic _⟩
    | diverge => exact absurd rfl h1

theorem NonRes.readFn_returns (v : NonRes) (d : Dev) (buf : Bytes) (hv : v.Sane) :
    (NonRes.readFn (v, d) buf).1.Returns ∧ (NonRes.readFn (v, d) buf).2.1.1.Sane ∧
      (NonRes.readFn (v, d) buf).2.2.length = buf.length ∧
      Uses d (NonRes.readFn (v, d) buf).1 (NonRes.readFn (v, d) buf).2.1.2 := by
  have h1 := NonRes.read_returns hv buf d
  obtain ⟨b, g1, g2, _⟩ := readLoop_contract (buf.length + v.data.length + v.runs.data.length + 2) v buf 0 d (by omega)
  refine ⟨h1.1, h1.2.1, ?_, readLoop_uses (buf.length + v.data.length + v.runs.data.length + 2) v buf 0 d⟩
  show (NonRes.readLoop (buf.length + v.data.length + v.runs.data.length + 2) v buf 0 d).2.2.1.length = _
  rw [g2]
  exact overwrite_length (by omega)

theorem NonRes.readExactAttached_returns {v : NonRes} (hv : v.Sane) (n : Nat) (d : Dev) :
    (NonRes.readExactAttached n (v, d)).1.Returns ∧ (NonRes.readExactAttached n (v, d)).2.1.Sane ∧
      (NonRes.readExactAttached n (v, d)).2.2.sched.length ≤ d.sched.length ∧
      (NonRes.readExactAttached n (v, d)).1.Quiet := by
  unfold NonRes.readExactAttached NonRes.readExact
  dsimp only
  have h := readExactLoop_returns NonRes.readFn NonRes.Sane NonRes.readFn_returns
    ((List.replicate n (0 : UInt8)).length + d.sched.length + 1) v d [] (List.replicate n 0) hv (by omega)
  generalize readExactLoop NonRes.readFn ((List.replicate n (0 : UInt8)).length + d.sched.length + 1) (v, d) []
    (List.replicate n 0) = q at h
  obtain ⟨x, ⟨v', d'⟩, b⟩ := q
  obtain ⟨h1, h2, h3, h4⟩ := h
  cases x with
  | ok u => exact ⟨.ok _, h2, h3.1, .ok _⟩
  | err e => exact ⟨.err _, h2, h3.1, .err (Err.viaIo_quiet fun h' => h4 (by rw [h']))⟩
  | panic p => exact ⟨.panic _, h2, h3.1, .panic _⟩
  | diverge => exact absurd rfl h1

/-! ### Operations on a device -/

/-- The operation comes back on every device, and when it reports `Interrupted`, the device did. -/
def StM.Fine {α : Type} (p : StM Dev α) : Prop :=
  ∀ d, (p d).1.Returns ∧ Uses d (p d).1 (p d).2

namespace StM.Fine

theorem lift {α : Type} {x : Res α} (h : x.Returns) (hq : x.Quiet) : StM.Fine (StM.lift x : StM Dev α) :=
  fun _ => ⟨h, Nat.le_refl _, fun h' => absurd h' hq⟩

theorem pure {α : Type} (a : α) : StM.Fine (Pure.pure a : StM Dev α) :=
  fun _ => ⟨.ok _, .refl_ok _ _⟩

theorem fail {α : Type} {e : Err} (h : e ≠ .io .interrupted) : StM.Fine (StM.fail e : StM Dev α) :=
  lift (.err _) (.err h)

theorem die {α : Type} (p : Panic) : StM.Fine (StM.die p : StM Dev α) :=
  lift (.panic _) (.panic _)

theorem bind {α β : Type} {p : StM Dev α} {f : α → StM Dev β} (hp : p.Fine)
    (hf : ∀ a d d', p d = (.ok a, d') → (f a).Fine) : StM.Fine (p >>= f) := by
  intro s
  rw [StM.bind_apply]
  have h := hp s
  cases e : p s with
  | mk r s' =>
  rw [e] at h
  obtain ⟨h1, h2⟩ := h
  cases r with
  | ok a =>
    have g := hf a s s' e s'
    exact ⟨g.1, h2.trans g.2⟩
  | err x => exact ⟨.err _, h2.1, fun h => h2.2 (by injection h with h; rw [h])⟩
  | panic p => exact ⟨.panic _, h2.1, fun h => by cases h⟩
  | diverge => exact absurd rfl h1

theorem ite {α : Type} {c : Prop} [Decidable c] {p q : StM Dev α} (hp : p.Fine) (hq : q.Fine) :
    StM.Fine (if c then p else q) := by
  split
  · exact hp
  · exact hq

end StM.Fine

/-- An error that is handed on. -/
theorem Uses.same {α β : Type} {d d' : Dev} {e : Err} (h : Uses d (.err e : Res α) d') : Uses d (.err e : Res β) d' :=
  ⟨h.1, fun h' => h.2 (by injection h' with h'; rw [h'])⟩

theorem Uses.quiet {α β : Type} {d d' : Dev} {x : Res α} {y : Res β} (h : Uses d x d') (hy : y.Quiet) : Uses d y d' :=
  ⟨h.1, fun h' => absurd h' hy⟩

theorem Dev.readExactAux_uses (fuel n : Nat) (acc : Bytes) (d : Dev) :
    Uses d (Dev.readExactAux fuel n acc d).1 (Dev.readExactAux fuel n acc d).2 := by
  induction fuel generalizing n acc d with
  | zero => exact ⟨Nat.le_refl _, fun h => by cases h⟩
  | succ fuel ih =>
    unfold Dev.readExactAux
    by_cases hn : n = 0
    · rw [if_pos hn]; exact .refl_ok _ _
    rw [if_neg hn]
    have h := Dev.read_uses n d
    generalize Dev.read n d = q at h
    obtain ⟨r, d'⟩ := q
    dsimp only at h
    cases r with
    | ok b =>
      dsimp only
      by_cases hb : b.length = 0
      · rw [if_pos hb]; exact h.quiet (.err fun h => by cases h)
      · rw [if_neg hb]; exact h.trans (ih _ _ _)
    | err e =>
      cases e
      case io e =>
        cases e
        case interrupted => exact h.trans (ih _ _ _)
        all_goals exact h.same
      all_goals exact h.same
    | panic p => exact h.quiet (.panic _)
    | diverge => exact h.quiet .diverge

theorem Dev.seekStart_fine (p : Nat) : (Dev.seekStart p).Fine := by
  intro d
  refine ⟨?_, Dev.seekStart_uses p d⟩
  rcases Dev.seekStart_cases p d with ⟨d', e, _, _, h⟩ | ⟨x, d', e, _, _, h⟩ <;> rw [e]
  · exact .ok _
  · exact .err _

theorem Dev.readExact_fine (n : Nat) : (Dev.readExact n).Fine := fun d =>
  ⟨Dev.readExact_ne_diverge n d, Dev.readExactAux_uses _ _ _ d⟩

theorem NFile.new_fine (n : Ntfs) (p i : Nat) : (NFile.new n p i).Fine :=
  .bind (Dev.seekStart_fine _) fun _ _ _ _ => .bind (Dev.readExact_fine _) fun _ _ _ _ =>
    .lift (NFile.ofBytes_returns _ _ _ _) (NFile.ofBytes_quiet _ _ _ _)

theorem AttrsRaw.next_returns (it : AttrsRaw) : ∀ r, it.next.1 = some r → r.Returns := by
  rcases it.next_cases with ⟨_, h⟩ | ⟨len, _, h⟩ | ⟨_, _, h⟩ <;> rw [h] <;> intro r hr <;> cases hr
  · exact .ok _
  · exact .err _

theorem AttrsRaw.find_returns (ty : AttrType) (name : Option (List Nat)) (inst : Option Nat) (fuel : Nat)
    (it : AttrsRaw) (hf : it.file.recordData.length - it.start < fuel) : (it.find ty name inst fuel).Returns := by
  induction fuel generalizing it with
  | zero => omega
  | succ fuel ih =>
    unfold AttrsRaw.find
    rcases it.next_cases with ⟨_, h⟩ | ⟨len, ha, h⟩ | ⟨_, _, h⟩ <;> rw [h] <;> dsimp only
    · exact .err _
    · have h1 := ha.header
      have h2 := ha.inside
      have hr : (AttrsRaw.find ty name inst fuel { it with start := it.start + len }).Returns :=
        ih _ (show it.file.recordData.length - (it.start + len) < fuel by omega)
      refine .bind (.ok _) fun a _ => .bind a.ty_returns fun _ _ => .ite hr (.bind ?_ fun _ _ => .ite hr (.bind ?_ fun _ _ => .ite hr (.ok _)))
      · unfold Attr.instMatches
        cases inst with
        | none => exact .ok _
        | some i => exact .bind (readLE_returns _ _ _) fun _ _ => .ok _
      · unfold Attr.nameMatches
        cases name with
        | none => exact .ok _
        | some i => exact .bind a.name_returns fun _ _ => .ok _
    · exact .bind (.err _) fun _ h => by cases h

theorem NFile.attributesRaw_returns (f : NFile) : f.attributesRaw.Returns :=
  .bind (readLE_returns _ _ _) fun _ _ => .bind (readLE_returns _ _ _) fun _ _ => .ok _

theorem NFile.findResidentAttribute_returns (f : NFile) (ty : AttrType) (name : Option (List Nat))
    (inst : Option Nat) : (f.findResidentAttribute ty name inst).Returns := by
  refine .bind f.attributesRaw_returns fun it h => AttrsRaw.find_returns _ _ _ _ _ ?_
  have : it.file = f := by
    unfold NFile.attributesRaw at h
    simp only [Res.bind_eq_ok] at h
    obtain ⟨_, _, _, _, h⟩ := h
    cases h
    rfl
  rw [this]
  omega

/-- What every value of an attribute without a list has. -/
def SVal.Sane : SVal → Prop
  | .res _ => True
  | .nonRes v => v.Sane

theorem Attr.nonResidentValue_returns (a : Attr) :
    a.nonResidentValue.Returns ∧ ∀ v, a.nonResidentValue = .ok v → v.Sane := by
  unfold Attr.nonResidentValue
  constructor
  · exact .bind a.nonResidentValueDataAndPosition_returns fun _ _ =>
      .bind a.nonResidentValueDataSize_returns fun _ _ => (NonRes.new_returns _ _ _ _).1
  · intro v h
    simp only [Res.bind_eq_ok] at h
    obtain ⟨_, _, _, _, h⟩ := h
    exact (NonRes.new_returns _ _ _ _).2 v h

theorem Attr.simpleValue_returns (a : Attr) :
    a.simpleValue.Returns ∧ ∀ v, a.simpleValue = .ok v → v.Sane := by
  constructor
  · exact .bind a.isResident_returns fun _ _ => .ite (.bind a.residentValue_returns fun _ _ => .ok _)
      (.bind a.nonResidentValue_returns.1 fun _ _ => .ok _)
  · intro v h
    unfold Attr.simpleValue at h
    rw [Res.bind_eq_ok] at h
    obtain ⟨b, _, h⟩ := h
    split at h
    · rw [Res.bind_eq_ok] at h
      obtain ⟨w, _, h⟩ := h
      cases h
      exact trivial
    · rw [Res.bind_eq_ok] at h
      obtain ⟨w, hw, h⟩ := h
      cases h
      exact a.nonResidentValue_returns.2 w hw

theorem SVal.seek_returns {v : SVal} (hv : v.Sane) (pos : SeekFrom) :
    (v.seek pos).1.Returns ∧ (v.seek pos).2.Sane := by
  cases v with
  | res v => exact ⟨seekContiguous_returns _ _ _, trivial⟩
  | nonRes v =>
    have h := NonRes.seek_returns hv pos
    exact ⟨h.1, h.2.1⟩

theorem Ntfs.file_fine (n : Ntfs) (i : Nat) : (n.file i).Fine := by
  unfold Ntfs.file
  refine .bind (.lift (.ofOption _ _) (.ofOption (fun h => by cases h) _)) fun o _ _ _ => ?_
  cases n.mftPosition with
  | none => exact .die _
  | some p =>
    refine .bind (NFile.new_fine _ _ _) fun mft _ _ _ =>
      .bind (.lift (NFile.findResidentAttribute_returns _ _ _ _) (NFile.findResidentAttribute_quiet _ _ _ _))
      fun a _ _ _ => .bind (.lift a.simpleValue_returns.1 a.simpleValue_quiet) fun v d d' hv => ?_
    rw [StM.lift_apply] at hv
    injection hv with hv _
    have h := v.seek_quiet (.start o)
    have h' := SVal.seek_returns (a.simpleValue_returns.2 v hv) (.start o)
    generalize v.seek (.start o) = q at h h'
    obtain ⟨x, v'⟩ := q
    cases x with
    | ok x =>
      dsimp only
      cases v'.dataPosition with
      | none => exact .fail (fun h => by cases h)
      | some p => exact NFile.new_fine _ _ _
    | err x => exact .fail fun h' => h (by rw [h'])
    | panic x => exact .die _
    | diverge => exact absurd rfl h'.1

theorem NFile.new_size {n : Ntfs} {p i : Nat} {d d' : Dev} {f : NFile}
    (h : NFile.new n p i d = (.ok f, d')) : f.recordData.length = n.fileRecordSize := by
  unfold NFile.new at h
  rw [StM.bind_ok_iff] at h
  obtain ⟨_, d1, _, h⟩ := h
  rw [StM.bind_ok_iff] at h
  obtain ⟨b, d2, h1, h⟩ := h
  rw [StM.lift_apply] at h
  injection h with h _
  rw [NFile.ofBytes_length h]
  obtain ⟨d3, _, ⟨e, g⟩ | ⟨e, g⟩⟩ := Dev.readExact_any n.fileRecordSize d1 <;> rw [h1] at *
  · injection e with e _
    injection e with e
    rw [e, List.length_take, List.length_drop]
    omega
  · injection g with g _
    cases g

theorem Ntfs.file_size {n : Ntfs} {i : Nat} {d d' : Dev} {f : NFile}
    (h : n.file i d = (.ok f, d')) : f.recordData.length = n.fileRecordSize := by
  unfold Ntfs.file at h
  rw [StM.bind_ok_iff] at h
  obtain ⟨o, d1, h1, h⟩ := h
  cases hm : n.mftPosition with
  | none => rw [hm] at h; cases h
  | some p =>
    rw [hm] at h
    dsimp only at h
    rw [StM.bind_ok_iff] at h
    obtain ⟨mft, d1, h1, h⟩ := h
    rw [StM.bind_ok_iff] at h
    obtain ⟨a, d2, h2, h⟩ := h
    rw [StM.bind_ok_iff] at h
    obtain ⟨v, d2, h2, h⟩ := h
    generalize v.seek (.start o) = q at h
    obtain ⟨x, v'⟩ := q
    cases x with
    | ok x =>
      dsimp only at h
      cases hq : v'.dataPosition with
      | none => rw [hq] at h; cases h
      | some q => rw [hq] at h; exact NFile.new_size h
    | err x => cases h
    | panic x => cases h
    | diverge => cases h

/-! ### Attribute lists -/

/-- What every attribute list has. -/
def AttrList.Sane : AttrList → Prop
  | .resident _ _ => True
  | .nonResident v => v.Sane

/-- From a state in `P` the operation comes back, stays in `P` and reports no `Interrupted`. -/
def StM.Keeps {σ α : Type} (P : σ → Prop) (p : StM σ α) : Prop :=
  ∀ s, P s → (p s).1.Returns ∧ (p s).1.Quiet ∧ P (p s).2

namespace StM.Keeps

theorem lift {σ α : Type} {P : σ → Prop} {x : Res α} (h : x.Returns) (hq : x.Quiet) :
    StM.Keeps P (StM.lift x : StM σ α) := fun _ hs => ⟨h, hq, hs⟩

theorem pure {σ α : Type} {P : σ → Prop} (a : α) : StM.Keeps P (Pure.pure a : StM σ α) :=
  fun _ hs => ⟨.ok _, .ok _, hs⟩

theorem bind {σ α β : Type} {P : σ → Prop} {p : StM σ α} {f : α → StM σ β} (hp : p.Keeps P)
    (hf : ∀ a, (f a).Keeps P) : StM.Keeps P (p >>= f) := by
  intro s hs
  rw [StM.bind_apply]
  have h := hp s hs
  generalize p s = q at h
  obtain ⟨r, s'⟩ := q
  obtain ⟨h1, h2, h3⟩ := h
  cases r with
  | ok a => exact hf a s' h3
  | err e => exact ⟨.err _, h2.same, h3⟩
  | panic p => exact ⟨.panic _, .panic _, h3⟩
  | diverge => exact absurd rfl h1

end StM.Keeps

theorem ListEntry.new_keeps {σ : Type} {P : σ → Prop} {re : Nat → StM σ Bytes} (h : ∀ n, (re n).Keeps P)
    (p : Pos) : (ListEntry.new re p).Keeps P :=
  .bind (h _) fun _ => .bind (.lift (.bind (readLE_returns _ _ _) fun _ _ => .bind (readLE_returns _ _ _) fun _ _ =>
    .bind (idxByte_returns _ _) fun _ _ => .bind (readLE_returns _ _ _) fun _ _ => .bind (idxRange_returns _ _ _) fun _ _ =>
    .bind (readLE_returns _ _ _) fun _ _ => .ok _)
    (.bind (readLE_quiet _ _ _) fun _ => .bind (readLE_quiet _ _ _) fun _ =>
    .bind (idxByte_quiet _ _) fun _ => .bind (readLE_quiet _ _ _) fun _ => .bind (idxRange_quiet _ _ _) fun _ =>
    .bind (readLE_quiet _ _ _) fun _ => .ok _)) fun _ =>
    .bind (.lift (.ite (.err _) (.ok _)) (.ite (.err (fun h => by cases h)) (.ok _))) fun _ =>
    .bind (h _) fun _ => .pure _

theorem AttrList.next_returns {l : AttrList} (hl : l.Sane) (d : Dev) :
    (AttrList.next (l, d)).1.Returns ∧ (AttrList.next (l, d)).1.Quiet ∧ (AttrList.next (l, d)).2.1.Sane ∧
      (AttrList.next (l, d)).2.2.sched.length ≤ d.sched.length := by
  cases l with
  | resident s p =>
    rw [C24_arbitrary_resident]
    repeat' split
    all_goals first
      | exact ⟨.ok _, .ok _, trivial, Nat.le_refl _⟩
      | exact ⟨.err _, .err (fun h => by cases h), trivial, Nat.le_refl _⟩
  | nonResident v =>
    unfold AttrList.next AttrList.nextNonResident
    dsimp only
    by_cases hv : v.streamPosition ≥ v.len
    · rw [if_pos hv]; exact ⟨.ok _, .ok _, hl, Nat.le_refl _⟩
    rw [if_neg hv]
    have h := ListEntry.new_keeps (P := fun s : NonRes × Dev => s.1.Sane ∧ s.2.sched.length ≤ d.sched.length)
      (re := NonRes.readExactAttached) (fun n s hs => by
        have g := NonRes.readExactAttached_returns hs.1 n s.2
        exact ⟨g.1, g.2.2.2, g.2.1, Nat.le_trans g.2.2.1 hs.2⟩) v.dataPosition (v, d) ⟨hl, Nat.le_refl _⟩
    generalize ListEntry.new NonRes.readExactAttached v.dataPosition (v, d) = q at h
    obtain ⟨x, ⟨v', d'⟩⟩ := q
    obtain ⟨h1, h2, h3, h4⟩ := h
    cases x with
    | ok e =>
      dsimp only
      have g := v.seek_quiet (.current e.length)
      have g' := NonRes.seek_returns hl (.current e.length)
      generalize v.seek (.current e.length) = q at g g'
      obtain ⟨x, w⟩ := q
      cases x with
      | ok m => exact ⟨.ok _, .ok _, g'.2.1, h4⟩
      | err e => exact ⟨.err _, g.same, g'.2.1, h4⟩
      | panic p => exact ⟨.panic _, .panic _, g'.2.1, h4⟩
      | diverge => exact absurd rfl g'.1
    | err e => exact ⟨.err _, h2.same, hl, h4⟩
    | panic p => exact ⟨.panic _, .panic _, hl, h4⟩
    | diverge => exact absurd rfl h1

theorem ListEntry.ty_returns (e : ListEntry) : e.ty.Returns := .ofOption _ _

theorem ListEntry.toAttribute_returns (e : ListEntry) (f : NFile) : (e.toAttribute f).Returns :=
  .ite (.bind e.ty_returns fun _ _ => NFile.findResidentAttribute_returns _ _ _ _) (.panic _)

/-! ### Values split over several attributes -/

/-- What every such value has: the list iterator is at or behind where it started, and the current
attribute is in a file record. -/
structure ALVal.Sane (v : ALVal) : Prop where
  initial : v.initial.Sane
  connected : ∀ l, v.connected = some l → l.Sane ∧ l.remaining ≤ v.initial.remaining
  state : ∀ a, v.attrState = some a → a.file.recordData.length ≤ v.ntfs.fileRecordSize ∧
    ∀ s, a.runs = some s → s.previousLcn < U64

/-- The value is sane and still the value of the same list on the same file system. -/
structure ALVal.SaneAs (w v : ALVal) : Prop where
  sane : v.Sane
  initial : v.initial = w.initial
  ntfs : v.ntfs = w.ntfs

theorem ALVal.Sane.left_lt {v : ALVal} (h : v.Sane) : v.left < v.runFuel := by
  obtain ⟨ntfs, ini, con, inst, ty, size, as, st⟩ := v
  obtain ⟨_, h1, h2⟩ := h
  dsimp only at h1 h2
  have hm : ini.remaining * (ntfs.fileRecordSize + 1) ≤ ini.remaining * (ntfs.fileRecordSize + 2) :=
    Nat.mul_le_mul_left _ (by omega)
  show _ < (ini.remaining + 2) * (ntfs.fileRecordSize + 2)
  rw [Nat.add_mul]
  unfold ALVal.left
  have hC : ∀ l, con = some l → l.remaining * (ntfs.fileRecordSize + 1) ≤ ini.remaining * (ntfs.fileRecordSize + 1) :=
    fun l h => Nat.mul_le_mul_right _ (h1 l h).2
  rcases con with _ | l <;> rcases as with _ | ⟨f, o, _ | s⟩ <;> dsimp only
  · omega
  · omega
  · have := (h2 _ rfl).1; dsimp only at this; omega
  · have := hC l rfl; omega
  · have := hC l rfl; omega
  · have := hC l rfl; have := (h2 _ rfl).1; dsimp only at this; omega

theorem ALVal.nextConnected_returns {v : ALVal} (hv : v.Sane) (d : Dev) :
    (ALVal.nextConnected (v, d)).1.Returns ∧ (ALVal.nextConnected (v, d)).1.Quiet ∧
      v.SaneAs (ALVal.nextConnected (v, d)).2.1 ∧
      (ALVal.nextConnected (v, d)).2.2.sched.length ≤ d.sched.length := by
  unfold ALVal.nextConnected
  dsimp only
  cases hc : v.connected with
  | none => exact ⟨.ok _, .ok _, ⟨hv, rfl, rfl⟩, Nat.le_refl _⟩
  | some l =>
    dsimp only
    obtain ⟨hl, hr⟩ := hv.connected l hc
    have h := AttrList.next_returns hl d
    have h' := AttrList.next_remaining l d
    generalize AttrList.next (l, d) = q at h h'
    obtain ⟨x, ⟨l', d'⟩⟩ := q
    obtain ⟨h1, h2, h3, h4⟩ := h
    dsimp only at h' h3
    have hs : v.SaneAs { v with connected := some l' } :=
      ⟨⟨hv.initial, fun l hl => by injection hl with hl; subst hl; exact ⟨h3, Nat.le_trans h' hr⟩, hv.state⟩, rfl, rfl⟩
    have hn : v.SaneAs { v with connected := none } :=
      ⟨⟨hv.initial, fun l hl => (by cases hl), hv.state⟩, rfl, rfl⟩
    cases x with
    | ok o =>
      cases o with
      | none => exact ⟨.ok _, .ok _, hs, h4⟩
      | some e =>
        dsimp only
        by_cases hi : e.inst = v.inst
        · rw [if_pos hi]
          have ht := e.ty_quiet
          have ht' := e.ty_returns
          generalize e.ty = t at ht ht'
          cases t with
          | ok t =>
            dsimp only
            by_cases hv : t = v.ty
            · rw [if_pos hv]; exact ⟨.ok _, .ok _, hs, h4⟩
            · rw [if_neg hv]; exact ⟨.ok _, .ok _, hn, h4⟩
          | err x => exact ⟨.err _, ht.same, hs, h4⟩
          | panic x => exact ⟨.panic _, .panic _, hs, h4⟩
          | diverge => exact absurd rfl ht'
        · rw [if_neg hi]; exact ⟨.ok _, .ok _, hn, h4⟩
    | err x => exact ⟨.err _, h2.same, hs, h4⟩
    | panic x => exact ⟨.panic _, .panic _, hs, h4⟩
    | diverge => exact absurd rfl h1

theorem DataRuns.next_returns (r : DataRuns) (h : r.state.previousLcn < U64) :
    (∀ x, r.next.1 = some x → x.Returns) ∧ r.next.2.state.previousLcn < U64 := by
  refine ⟨?_, (r.next_data h).2.2⟩
  rcases r.next_cases h with ⟨r', h', h2, h3, h4⟩ | ⟨e, h'⟩ | ⟨l, h', _⟩ | ⟨x, o, l, h', _⟩ <;> rw [h'] <;>
    intro y hy <;> cases hy
  · exact .err _
  · exact .err _
  · exact .ok _

theorem ALVal.openEntry_fine (n : Ntfs) (e : ListEntry) : (ALVal.openEntry n e).Fine := by
  unfold ALVal.openEntry
  refine .bind (Ntfs.file_fine _ _) fun f _ _ _ => .bind (.lift (e.toAttribute_returns f) (e.toAttribute_quiet f))
    fun a _ _ _ => .bind (.lift a.isResident_returns a.isResident_quiet) fun b _ _ _ => ?_
  refine .ite (.fail (fun h => by cases h))
    (.bind (.lift a.nonResidentValueDataAndPosition_returns a.nonResidentValueDataAndPosition_quiet) fun x _ _ _ => ?_)
  obtain ⟨data, p⟩ := x
  dsimp only
  have h := DataRuns.next_not_interrupted (DataRuns.new n.clusterSize data p)
  have h' := (DataRuns.new n.clusterSize data p).next_returns (show (0 : Nat) < U64 by decide)
  generalize (DataRuns.new n.clusterSize data p).next = q at h h'
  obtain ⟨x, runs⟩ := q
  cases x with
  | none => exact .pure _
  | some r => exact .bind (.lift (h'.1 r rfl) fun h' => h (by rw [h'])) fun _ _ _ _ => .pure _

theorem ALVal.openEntry_state {n : Ntfs} {e : ListEntry} {d d' : Dev} {r : DataRun} {a : AttrState}
    (h : ALVal.openEntry n e d = (.ok (some (r, a)), d')) :
    a.file.recordData.length = n.fileRecordSize ∧ ∀ s, a.runs = some s → s.previousLcn < U64 := by
  unfold ALVal.openEntry at h
  rw [StM.bind_ok_iff] at h
  obtain ⟨f, d1, h1, h⟩ := h
  have hl := Ntfs.file_size h1
  rw [StM.bind_ok_iff] at h
  obtain ⟨at_, d2, _, h⟩ := h
  rw [StM.bind_ok_iff] at h
  obtain ⟨b, d3, _, h⟩ := h
  split at h
  · cases h
  rw [StM.bind_ok_iff] at h
  obtain ⟨⟨data, p⟩, d4, _, h⟩ := h
  dsimp only at h
  have h' := (DataRuns.new n.clusterSize data p).next_returns (show (0 : Nat) < U64 by decide)
  generalize (DataRuns.new n.clusterSize data p).next = q at h h'
  obtain ⟨x, runs⟩ := q
  cases x with
  | none => cases h
  | some x =>
    dsimp only at h
    rw [StM.bind_ok_iff] at h
    obtain ⟨r', d5, _, h⟩ := h
    cases h
    exact ⟨hl, fun s hs => by cases hs; exact h'.2⟩

theorem ALVal.nextAttribute_returns {v : ALVal} (hv : v.Sane) (d : Dev) :
    (ALVal.nextAttribute (v, d)).1.Returns ∧ v.SaneAs (ALVal.nextAttribute (v, d)).2.1 ∧
      Uses d (ALVal.nextAttribute (v, d)).1 (ALVal.nextAttribute (v, d)).2.2 := by
  unfold ALVal.nextAttribute
  rw [StM.bind_apply]
  have h := ALVal.nextConnected_returns hv d
  generalize ALVal.nextConnected (v, d) = q at h
  obtain ⟨x, ⟨v', d'⟩⟩ := q
  obtain ⟨h1, h2, h3, h4⟩ := h
  dsimp only at h3 h4
  have hu : ∀ {α : Type} {x : Res α}, x.Quiet → Uses d x d' := fun hq => ⟨h4, fun h => absurd h hq⟩
  cases x with
  | ok o =>
    cases o with
    | none => exact ⟨.ok _, h3, hu (.ok _)⟩
    | some e =>
      dsimp only
      have g := ALVal.openEntry_fine v'.ntfs e d'
      have gs := fun r a d2 => ALVal.openEntry_state (n := v'.ntfs) (e := e) (d := d') (d' := d2) (r := r) (a := a)
      generalize ALVal.openEntry v'.ntfs e d' = q at g gs
      obtain ⟨x, d''⟩ := q
      obtain ⟨g1, g2⟩ := g
      have g2 := (hu (x := .ok ()) (.ok _)).trans g2
      cases x with
      | ok o =>
        cases o with
        | none => exact ⟨.ok _, h3, g2.quiet (.ok _)⟩
        | some q =>
          obtain ⟨run, a⟩ := q
          obtain ⟨s1, s2⟩ := gs run a d'' rfl
          refine ⟨.ok _, ⟨⟨h3.sane.initial, h3.sane.connected, fun b hb => ?_⟩, h3.initial, h3.ntfs⟩, g2.quiet (.ok _)⟩
          cases hb
          exact ⟨Nat.le_of_eq s1, s2⟩
      | err x => exact ⟨.err _, h3, g2.same⟩
      | panic x => exact ⟨.panic _, h3, g2.quiet (.panic _)⟩
      | diverge => exact absurd rfl g1
  | err x => exact ⟨.err _, h3, hu h2.same⟩
  | panic x => exact ⟨.panic _, h3, hu (.panic _)⟩
  | diverge => exact absurd rfl h1

theorem ALVal.nextDataRun_returns {v : ALVal} (hv : v.Sane) :
    v.nextDataRun.1.Returns ∧ v.SaneAs v.nextDataRun.2 := by
  unfold ALVal.nextDataRun
  cases ha : v.attrState with
  | none => exact ⟨.ok _, ⟨hv, rfl, rfl⟩⟩
  | some a =>
    obtain ⟨hs1, hs2⟩ := hv.state a ha
    dsimp only
    cases hr : a.runs with
    | none => exact ⟨.ok _, ⟨hv, rfl, rfl⟩⟩
    | some s =>
      dsimp only
      have h1 : v.SaneAs { v with attrState := some { a with runs := none } } :=
        ⟨⟨hv.initial, hv.connected, fun b hb => by cases hb; exact ⟨hs1, fun s hs => by cases hs⟩⟩, rfl, rfl⟩
      have h : Res.Returns (do let at_ ← Attr.new a.file a.offset none; at_.nonResidentValueDataAndPosition :
          Res (Bytes × Pos)) := .bind (Attr.new_returns _ _ _) fun x _ => x.nonResidentValueDataAndPosition_returns
      generalize (do let at_ ← Attr.new a.file a.offset none; at_.nonResidentValueDataAndPosition :
          Res (Bytes × Pos)) = r at h
      cases r with
      | ok x =>
        obtain ⟨data, p⟩ := x
        dsimp only
        have h' := (DataRuns.fromState v.ntfs.clusterSize data p s).next_returns (hs2 s hr)
        generalize (DataRuns.fromState v.ntfs.clusterSize data p s).next = q at h'
        obtain ⟨x, runs⟩ := q
        cases x with
        | none => exact ⟨.ok _, h1⟩
        | some r =>
          have := h'.1 r rfl
          cases r with
          | ok r =>
            exact ⟨.ok _, ⟨hv.initial, hv.connected, fun b hb => by
              cases hb; exact ⟨hs1, fun s hs => by cases hs; exact h'.2⟩⟩, rfl, rfl⟩
          | err e => exact ⟨.err _, h1⟩
          | panic x => exact ⟨.panic _, h1⟩
          | diverge => exact absurd rfl this
      | err x => exact ⟨.err _, h1⟩
      | panic x => exact ⟨.panic _, h1⟩
      | diverge => exact absurd rfl h

theorem ALVal.SaneAs.trans {u v w : ALVal} (h1 : u.SaneAs v) (h2 : v.SaneAs w) : u.SaneAs w :=
  ⟨h2.sane, h2.initial.trans h1.initial, h2.ntfs.trans h1.ntfs⟩

/-- Another place in the stream. -/
theorem ALVal.SaneAs.place {v w : ALVal} (h : v.SaneAs w) (st : StreamState) : v.SaneAs { w with st := st } :=
  ⟨⟨h.sane.initial, h.sane.connected, h.sane.state⟩, h.initial, h.ntfs⟩

theorem ALVal.nextAttribute_left {v v' : ALVal} {d d' : Dev}
    (h : ALVal.nextAttribute (v, d) = (.ok true, (v', d'))) : v'.left < v.left := by
  unfold ALVal.nextAttribute at h
  rw [StM.bind_ok_iff] at h
  obtain ⟨o, ⟨v1, d1⟩, h1, h⟩ := h
  cases o with
  | none => cases h
  | some e =>
    obtain ⟨l, l', g1, g2, g3, _⟩ := ALVal.nextConnected_some h1
    dsimp only at h
    cases hq : ALVal.openEntry v1.ntfs e d1 with
    | mk x d2 =>
    rw [hq] at h
    cases x with
    | ok o =>
      cases o with
      | none => cases h
      | some q =>
        obtain ⟨r, a⟩ := q
        have hl := (ALVal.openEntry_state hq).1
        cases h
        subst g2
        obtain ⟨ntfs, ini, con, inst, ty, size, as, st⟩ := v
        dsimp only at g1 hl
        subst g1
        obtain ⟨f, o, rs⟩ := a
        dsimp only at hl
        have hmul : (l'.remaining + 1) * (ntfs.fileRecordSize + 1) ≤ l.remaining * (ntfs.fileRecordSize + 1) :=
          Nat.mul_le_mul_right _ g3
        rw [Nat.add_mul] at hmul
        unfold ALVal.left
        dsimp only
        cases rs with
        | none => dsimp only; omega
        | some s => dsimp only; omega
    | err e => cases h
    | panic e => cases h
    | diverge => cases h

theorem ALVal.advance_returns {v : ALVal} (hv : v.Sane) (d : Dev) :
    (v.advance d).1.Returns ∧ v.SaneAs (v.advance d).2.1 ∧ Uses d (v.advance d).1 (v.advance d).2.2 ∧
      ((v.advance d).1 = .ok true → (v.advance d).2.1.left < v.left) := by
  unfold ALVal.advance
  have h := ALVal.nextDataRun_returns hv
  have hq := v.nextDataRun_quiet
  have hd := v.nextDataRun_dec
  generalize v.nextDataRun = q at h hq hd
  obtain ⟨x, v'⟩ := q
  obtain ⟨h1, h2⟩ := h
  dsimp only at h2 hd
  have hu : ∀ {α : Type} {x : Res α}, x.Quiet → Uses d x d := fun hq => ⟨Nat.le_refl _, fun h => absurd h hq⟩
  cases x with
  | ok b =>
    cases b with
    | true => exact ⟨.ok _, h2, hu (.ok _), fun _ => hd.2 rfl⟩
    | false =>
      dsimp only
      obtain ⟨g1, g2, g3⟩ := ALVal.nextAttribute_returns h2.sane d
      refine ⟨g1, h2.trans g2, g3, fun h => ?_⟩
      have : ALVal.nextAttribute (v', d) =
          (.ok true, ((ALVal.nextAttribute (v', d)).2.1, (ALVal.nextAttribute (v', d)).2.2)) := by rw [← h]
      exact Nat.lt_of_lt_of_le (ALVal.nextAttribute_left this) hd.1
  | err x => exact ⟨.err _, h2, hu hq.same, fun h => by cases h⟩
  | panic x => exact ⟨.panic _, h2, hu (.panic _), fun h => by cases h⟩
  | diverge => exact absurd rfl h1

theorem ALVal.readLoop_returns (fuel : Nat) (v : ALVal) (buf : Bytes) (br : Nat) (d : Dev) (hv : v.Sane)
    (hbr : br ≤ buf.length) (hf : buf.length - br + v.left < fuel) :
    (ALVal.readLoop fuel v buf br d).1.Returns ∧ v.SaneAs (ALVal.readLoop fuel v buf br d).2.1 ∧
      Uses d (ALVal.readLoop fuel v buf br d).1 (ALVal.readLoop fuel v buf br d).2.2.2 := by
  induction fuel generalizing v buf br d with
  | zero => omega
  | succ fuel ih =>
    have hrefl : v.SaneAs v := ⟨hv, rfl, rfl⟩
    unfold ALVal.readLoop
    by_cases hlt : br < buf.length
    case neg => rw [if_neg hlt]; exact ⟨.ok _, hrefl, .refl_ok _ _⟩
    rw [if_pos hlt]
    have hu := readDataRun_uses v.st buf br d
    rcases readDataRun_cases v.st buf br d hbr with ⟨s', b, d', e, h1, h2, h3⟩ | ⟨e, d', he⟩ | ⟨e, _⟩
    · rw [e] at hu ⊢
      dsimp only at hu
      have hv' := hrefl.place s'
      have hleft : ALVal.left { v with st := s' } = v.left := rfl
      by_cases hb0 : 0 < b.length
      · rw [show (decide (0 < b.length)) = true from by simpa using hb0]
        dsimp only
        have hol : (overwrite buf br b).length = buf.length := overwrite_length h1
        obtain ⟨i1, i2, i3⟩ := ih { v with st := s' } (overwrite buf br b) (br + b.length) d' hv'.sane
          (by omega) (by rw [hol, hleft]; omega)
        exact ⟨i1, hv'.trans i2, hu.trans i3⟩
      · rw [show (decide (0 < b.length)) = false from by simpa using hb0]
        have hbn : b = [] := List.eq_nil_of_length_eq_zero (by omega)
        subst hbn
        rw [overwrite_nil]
        dsimp only
        have hn := ALVal.advance_returns hv'.sane d'
        rw [hleft] at hn
        generalize ALVal.advance { v with st := s' } d' = q at hn
        obtain ⟨x, v', d''⟩ := q
        obtain ⟨n1, n2, n3, n4⟩ := hn
        have n2 := hv'.trans n2
        have n3 := hu.trans n3
        cases x with
        | ok t =>
          cases t with
          | true =>
            have := n4 rfl
            dsimp only at this
            obtain ⟨i1, i2, i3⟩ := ih v' buf (br + 0) d'' n2.sane hbr (by omega)
            exact ⟨i1, n2.trans i2, n3.trans i3⟩
          | false => exact ⟨.ok _, n2, n3.quiet (.ok _)⟩
        | err e => exact ⟨.err _, n2, n3.same⟩
        | panic e => exact ⟨.panic _, n2, n3.quiet (.panic _)⟩
        | diverge => exact absurd rfl n1
    · rw [he] at hu ⊢; exact ⟨.err _, hrefl.place _, hu.same⟩
    · rw [e] at hu ⊢; exact ⟨.panic _, hrefl.place _, hu.quiet (.panic _)⟩

theorem ALVal.read_returns {v : ALVal} (hv : v.Sane) (buf : Bytes) (d : Dev) :
    (v.read buf d).1.Returns ∧ v.SaneAs (v.read buf d).2.1 ∧ Uses d (v.read buf d).1 (v.read buf d).2.2.2 :=
  ALVal.readLoop_returns _ v buf 0 d hv (Nat.zero_le _) (by have := hv.left_lt; omega)

theorem ALVal.seekLoop_returns (fuel : Nat) (v : ALVal) (pos : SeekFrom) (left : Nat) (d : Dev) (hv : v.Sane)
    (hf : v.left < fuel) :
    (ALVal.seekLoop fuel v pos left d).1.Returns ∧ v.SaneAs (ALVal.seekLoop fuel v pos left d).2.1 ∧
      Uses d (ALVal.seekLoop fuel v pos left d).1 (ALVal.seekLoop fuel v pos left d).2.2 := by
  induction fuel generalizing v left d with
  | zero => omega
  | succ fuel ih =>
    have hrefl : v.SaneAs v := ⟨hv, rfl, rfl⟩
    unfold ALVal.seekLoop
    by_cases hl : left > 0
    case neg => rw [if_neg hl]; exact ⟨.ok _, hrefl, .refl_ok _ _⟩
    rw [if_pos hl]
    have h1 := seekDataRun_returns v.st pos left
    have h1' := seekDataRun_quiet v.st pos left
    generalize v.st.seekDataRun pos left = q at h1 h1'
    obtain ⟨x, st', left'⟩ := q
    have hv' := hrefl.place st'
    have hleft : ALVal.left { v with st := st' } = v.left := rfl
    have hu : ∀ {α : Type} {x : Res α}, x.Quiet → Uses d x d := fun hq => ⟨Nat.le_refl _, fun h => absurd h hq⟩
    cases x with
    | ok b =>
      cases b with
      | true => exact ⟨.ok _, hv', hu (.ok _)⟩
      | false =>
        dsimp only
        have hn := ALVal.advance_returns hv'.sane d
        rw [hleft] at hn
        generalize ALVal.advance { v with st := st' } d = q at hn
        obtain ⟨x, v', d'⟩ := q
        obtain ⟨n1, n2, n3, n4⟩ := hn
        have n2 := hv'.trans n2
        cases x with
        | ok t =>
          cases t with
          | true =>
            have := n4 rfl
            dsimp only at this
            obtain ⟨i1, i2, i3⟩ := ih v' left' d' n2.sane (by omega)
            exact ⟨i1, n2.trans i2, n3.trans i3⟩
          | false => exact ⟨.ok _, n2.place _, n3.quiet (.ok _)⟩
        | err e => exact ⟨.err _, n2, n3.same⟩
        | panic e => exact ⟨.panic _, n2, n3.quiet (.panic _)⟩
        | diverge => exact absurd rfl n1
    | err e => exact ⟨.err _, hv', hu h1'.same⟩
    | panic e => exact ⟨.panic _, hv', hu (.panic _)⟩
    | diverge => exact absurd rfl h1

theorem ALVal.new_returns {n : Ntfs} {l : AttrList} (hl : l.Sane) (i : Nat) (t : AttrType) (size : Nat) :
    (ALVal.new n l i t size).Fine ∧ ∀ d v d', ALVal.new n l i t size d = (.ok v, d') → v.Sane := by
  have hv : ALVal.Sane ⟨n, l, some l, i, t, size, none, StreamState.new size⟩ :=
    ⟨hl, fun l' h => by cases h; exact ⟨hl, Nat.le_refl _⟩, fun a h => by cases h⟩
  constructor
  · intro d
    unfold ALVal.new
    dsimp only
    have h := ALVal.nextAttribute_returns hv d
    generalize ALVal.nextAttribute _ = q at h
    obtain ⟨x, v', d'⟩ := q
    obtain ⟨h1, h2, h3⟩ := h
    cases x with
    | ok b => exact ⟨.ok _, h3.quiet (.ok _)⟩
    | err e => exact ⟨.err _, h3.same⟩
    | panic e => exact ⟨.panic _, h3.quiet (.panic _)⟩
    | diverge => exact absurd rfl h1
  · intro d v d' hn
    unfold ALVal.new at hn
    dsimp only at hn
    have h := ALVal.nextAttribute_returns hv d
    generalize ALVal.nextAttribute _ = q at h hn
    obtain ⟨x, v', d'⟩ := q
    cases x with
    | ok b => cases hn; exact h.2.1.sane
    | err e => cases hn
    | panic e => cases hn
    | diverge => cases hn

theorem ALVal.rewind_returns {v : ALVal} (hv : v.Sane) (d : Dev) :
    (v.rewind d).1.Returns ∧ v.SaneAs (v.rewind d).2.1 ∧ Uses d (v.rewind d).1 (v.rewind d).2.2 := by
  have hv' : v.SaneAs { v with connected := some v.initial, st := StreamState.new v.len } :=
    ⟨⟨hv.initial, fun l' h => by cases h; exact ⟨hv.initial, Nat.le_refl _⟩, hv.state⟩, rfl, rfl⟩
  unfold ALVal.rewind
  have h := ALVal.nextAttribute_returns hv'.sane d
  generalize ALVal.nextAttribute _ = q at h
  obtain ⟨x, v', d'⟩ := q
  obtain ⟨h1, h2, h3⟩ := h
  have h2 := hv'.trans h2
  cases x with
  | ok b => exact ⟨.ok _, h2, h3.quiet (.ok _)⟩
  | err e => exact ⟨.err _, h2, h3.same⟩
  | panic e => exact ⟨.panic _, h2, h3.quiet (.panic _)⟩
  | diverge => exact absurd rfl h1

theorem ALVal.seek_returns {v : ALVal} (hv : v.Sane) (pos : SeekFrom) (d : Dev) :
    (v.seek pos d).1.Returns ∧ v.SaneAs (v.seek pos d).2.1 ∧ Uses d (v.seek pos d).1 (v.seek pos d).2.2 := by
  have hrefl : v.SaneAs v := ⟨hv, rfl, rfl⟩
  have hu : ∀ {α : Type} {x : Res α}, x.Quiet → Uses d x d := fun hq => ⟨Nat.le_refl _, fun h => absurd h hq⟩
  unfold ALVal.seek
  have h0 := optimizeSeek_returns v.st pos v.len
  have h0' := optimizeSeek_quiet v.st pos v.len
  cases ho : v.st.optimizeSeek pos v.len with
  | err e => rw [ho] at h0'; exact ⟨.err _, hrefl, hu h0'.same⟩
  | panic p => exact ⟨.panic _, hrefl, hu (.panic _)⟩
  | diverge => exact absurd ho h0
  | ok x =>
    cases x with
    | end_ n => exact ⟨.panic _, hrefl, hu (.panic _)⟩
    | start n =>
      dsimp only
      have h1 := ALVal.rewind_returns hv d
      generalize v.rewind d = q at h1
      obtain ⟨x, v1, d1⟩ := q
      obtain ⟨r1, r2, r3⟩ := h1
      cases x with
      | ok u =>
        dsimp only at r2 r3 ⊢
        have hfuel : v1.runFuel = v.runFuel := by unfold ALVal.runFuel; rw [r2.initial, r2.ntfs]
        have h2 := ALVal.seekLoop_returns v.runFuel v1 (.start n) n d1 r2.sane
          (by rw [← hfuel]; exact r2.sane.left_lt)
        generalize ALVal.seekLoop v.runFuel v1 (.start n) n d1 = q at h2
        obtain ⟨x, v2, d2⟩ := q
        obtain ⟨s1, s2, s3⟩ := h2
        have s2 := r2.trans s2
        have s3 := r3.trans s3
        cases x with
        | ok u => exact ⟨.ok _, s2.place _, s3.quiet (.ok _)⟩
        | err e => exact ⟨.err _, s2, s3.same⟩
        | panic p => exact ⟨.panic _, s2, s3.quiet (.panic _)⟩
        | diverge => exact absurd rfl s1
      | err e => exact ⟨.err _, r2, r3.same⟩
      | panic p => exact ⟨.panic _, r2, r3.quiet (.panic _)⟩
      | diverge => exact absurd rfl r1
    | current n =>
      dsimp only
      by_cases hn : 0 ≤ n
      · rw [if_pos hn]
        have h2 := ALVal.seekLoop_returns v.runFuel v (.current n) n.toNat d hv hv.left_lt
        generalize ALVal.seekLoop v.runFuel v (.current n) n.toNat d = q at h2
        obtain ⟨x, v2, d2⟩ := q
        obtain ⟨s1, s2, s3⟩ := h2
        cases x with
        | ok u =>
          dsimp only at s2 s3 ⊢
          by_cases hu : v2.st.streamPosition + n.toNat < U64
          · rw [if_pos hu]; exact ⟨.ok _, s2.place _, s3.quiet (.ok _)⟩
          · rw [if_neg hu]; exact ⟨.panic _, s2, s3.quiet (.panic _)⟩
        | err e => exact ⟨.err _, s2, s3.same⟩
        | panic p => exact ⟨.panic _, s2, s3.quiet (.panic _)⟩
        | diverge => exact absurd rfl s1
      · rw [if_neg hn]; exact ⟨.panic _, hrefl, hu (.panic _)⟩

end NT
