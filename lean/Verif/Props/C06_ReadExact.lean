import Verif.Lemmas.ReadExact
import Verif.Props.C42_Failures
import Verif.Props.C02_Resident

namespace NT

open Spec

/-- What `read_exact` should do on an in-memory file: fill the whole buffer with the next bytes, or
deliver what is left and report `UnexpectedEof`. Result, cursor afterwards, buffer afterwards. -/
def Spec.Flat.readExact (f : Flat) (buf : Bytes) : Res Unit × Nat × Bytes :=
  let left := f.content.drop f.pos
  if buf.length ≤ left.length then (.ok (), f.pos + buf.length, left.take buf.length)
  else (.err (.io .unexpectedEof), f.pos + left.length, left ++ buf.drop left.length)

theorem flat_readExact_eq (f : Flat) (buf : Bytes) :
    f.readExact buf =
      (if buf.length ≤ (f.content.drop f.pos).length then .ok () else .err (.io .unexpectedEof),
        f.pos + ((f.content.drop f.pos).take buf.length).length,
        (f.content.drop f.pos).take buf.length ++
          buf.drop ((f.content.drop f.pos).take buf.length).length) := by
  unfold Spec.Flat.readExact
  dsimp only
  generalize List.drop f.pos f.content = left
  by_cases h : buf.length ≤ left.length
  · rw [if_pos h, if_pos h, List.length_take, Nat.min_eq_left h]
    simp
  · rw [if_neg h, if_neg h, List.take_of_length_le (by omega)]

theorem Spec.Flat.run_len (ops : List Op) (f : Flat) : (f.run ops).2.len = f.len := by
  induction ops generalizing f with
  | nil => rfl
  | cons op ops ih =>
    simp only [Flat.run, ih]
    cases op with
    | read => rfl
    | seek s => simp only [Flat.step]; split <;> rfl

theorem ResVal.readsLike (data : Bytes) :
    ReadsLike ResVal.readFn (fun v => v.data = data) (fun v => data.drop v.streamPosition)
      ResVal.streamPosition := by
  rintro v buf rfl
  refine ⟨_, ResVal.read_eq v buf, rfl, ?_, rfl⟩
  dsimp only
  rw [List.drop_drop]

theorem NonRes.readsLike (img : Bytes) (all : List DataRun) (size : Nat) (himg : img.length < U64) :
    ReadsLike NonRes.readFn
      (fun s => s.1.Good img all ∧ s.2.NoFail ∧ s.2.img = img ∧ s.1.st.dataSize = size)
      (fun s => ((restBytes img all).take size).drop s.1.st.streamPosition)
      (fun s => s.1.st.streamPosition) := by
  rintro ⟨v, d⟩ buf ⟨hg, hd, hi, hsz⟩
  obtain ⟨got, v', d', h1, h2, h3, h4, h5, h6, h7, h8⟩ :=
    NonRes.read_good img all v hg himg buf d hd hi
  dsimp only at hg hsz ⊢
  rw [hsz] at h1
  rw [← h1]
  refine ⟨(v', d'), ?_, ⟨h3, h8, h7, by rw [← hsz, h5]⟩, ?_, h6⟩
  · unfold NonRes.readFn; dsimp only; rw [h2]
  · dsimp only; rw [h6, List.drop_drop]

/-- C06 for resident values, in every state. -/
theorem C06_resident (v : ResVal) (buf : Bytes) :
    let want := Flat.readExact ⟨v.data, v.data.length, v.streamPosition⟩ buf
    v.readExact buf = (want.1, { v with streamPosition := want.2.1 }, want.2.2) := by
  have hP : ReadsLike ResVal.readFn (fun w => w.data = v.data ∧ w.position = v.position)
      (fun w => v.data.drop w.streamPosition) ResVal.streamPosition := by
    rintro w buf ⟨h1, h2⟩
    refine ⟨{ w with streamPosition :=
        w.streamPosition + ((w.data.drop w.streamPosition).take buf.length).length },
      ?_, ⟨?_, ?_⟩, ?_, ?_⟩
    · dsimp only; rw [← h1]; exact ResVal.read_eq w buf
    · exact h1
    · exact h2
    · dsimp only; rw [List.drop_drop, h1]
    · dsimp only; rw [h1]
  obtain ⟨v', ⟨h1, h2⟩, h3, _, h5⟩ := readExactLoop_readsLike hP (buf.length + 1) v [] buf ⟨rfl, rfl⟩
    (by omega)
  dsimp only
  rw [flat_readExact_eq]
  unfold ResVal.readExact
  rw [h3]
  dsimp only at h5 ⊢
  rw [← h5, ← h1, ← h2]
  simp

/-- C06 for non-resident values, after any history of reads and seeks and for every way the device
splits reads. -/
theorem C06_non_resident (cs : Nat) (img data : Bytes) (es : List Extent) (p : Pos) (size : Nat)
    (h : StoredAs cs img data es) (hsize : size < U64) (d : Dev) (hd : d.NoFail) (hi : d.img = img)
    (ops : List Op) (hops : ∀ op ∈ ops, op.InRange) (buf : Bytes) :
    ∃ v v1 d1 v2 d2, NonRes.new cs data p size = .ok v ∧ (v.run d ops).2 = (v1, d1) ∧
      v1.readExact buf d1 =
        (((Flat.run ⟨(content cs img es).take size, size, 0⟩ ops).2.readExact buf).1, (v2, d2),
          ((Flat.run ⟨(content cs img es).take size, size, 0⟩ ops).2.readExact buf).2.2) ∧
      v2.streamPosition =
        ((Flat.run ⟨(content cs img es).take size, size, 0⟩ ops).2.readExact buf).2.1 := by
  obtain ⟨v, h1, h2, h3, h4, _⟩ := NonRes.new_good h p size hsize
  obtain ⟨i1, i2, i3, i4, i5⟩ := NonRes.run_refines img _ h.imgLt ops hops v h2 d hd hi
  have hf : v.flat img (es.map (runOf cs)) =
      { content := (content cs img es).take size, len := size, pos := 0 } := by
    unfold NonRes.flat
    rw [restBytes_runOf, h3, h4]
  rw [hf] at i2
  have hsz : (v.run d ops).2.1.st.dataSize = size := by
    have := congrArg Flat.len i2
    rw [Flat.run_len] at this
    exact this
  have hfl : (v.run d ops).2.1.flat img (es.map (runOf cs)) =
      ⟨(restBytes img (es.map (runOf cs))).take size, size, (v.run d ops).2.1.st.streamPosition⟩ := by
    unfold NonRes.flat
    rw [hsz]
  rw [hfl] at i2
  rw [← i2, flat_readExact_eq]
  obtain ⟨⟨v', d'⟩, hP, g1, g2, g3⟩ := readExactLoop_readsLike
    (NonRes.readsLike img (es.map (runOf cs)) size h.imgLt)
    (buf.length + (v.run d ops).2.2.sched.length + 1) ((v.run d ops).2.1, (v.run d ops).2.2) [] buf
    ⟨i3, i4, i5, hsz⟩ (by omega)
  refine ⟨v, (v.run d ops).2.1, (v.run d ops).2.2, v', d', h1, rfl, ?_, ?_⟩
  · unfold NonRes.readExact
    rw [g1]
    dsimp only
    rw [List.nil_append]
  · exact g3

/-- Over any device, however it fails, `read_exact` on a well-formed value ends. -/
theorem C06_terminates (cs : Nat) (img data : Bytes) (es : List Extent) (p : Pos) (size : Nat)
    (h : StoredAs cs img data es) (hsize : size < U64) (d : Dev) (hi : d.img = img) (buf : Bytes) :
    ∃ v, NonRes.new cs data p size = .ok v ∧ (v.readExact buf d).1.Safe := by
  obtain ⟨v, h1, h2, _⟩ := NonRes.new_good h p size hsize
  refine ⟨v, h1, ?_⟩
  unfold NonRes.readExact
  suffices key : ∀ (fuel : Nat) (v : NonRes) (d : Dev) (done buf : Bytes),
      v.Good img (es.map (runOf cs)) → d.img = img → buf.length + d.sched.length < fuel →
      (readExactLoop NonRes.readFn fuel (v, d) done buf).1.Safe from
    key _ v d [] buf h2 hi (by omega)
  intro fuel
  induction fuel with
  | zero => intros; omega
  | succ fuel ih =>
    intro v d done buf hg hi hf
    unfold readExactLoop
    by_cases hb : buf.length = 0
    · rw [if_pos hb]; trivial
    rw [if_neg hb]
    obtain ⟨m, v', buf', d', g1, g2, g3, g4, g5, g6, g7, g8, g9, g10⟩ :=
      NonRes.read_any img _ v hg h.imgLt buf d hi
    have hbl : buf'.length = buf.length := by
      rw [g2, List.length_append, List.length_take, Nat.min_eq_left g3, List.length_drop]; omega
    rcases g4 with ⟨k1, k2, k3⟩ | ⟨e, k1, k2, k3, _⟩
    · simp only [NonRes.readFn, k1]
      by_cases hm : m = 0
      · rw [if_pos hm]; trivial
      · rw [if_neg hm, if_pos (by omega)]
        exact ih v' d' _ _ g5 g9 (by rw [List.length_drop]; omega)
    · simp only [NonRes.readFn, k1]
      by_cases he : Err.io e = Err.io .interrupted
      · rw [if_pos he]
        exact ih v' d' _ _ g5 g9 (by omega)
      · rw [if_neg he]; trivial

/-- If the next device call fails and there is no sparse run, a read fails before it has delivered
anything, unless there is nothing to read. -/
theorem readLoop_failFirst (fuel : Nat) (v : NonRes) (buf : Bytes) (br : Nat) (d : Dev) (e : IoErr)
    (s : List Resp) (hs : d.sched = .fail e :: s)
    (post : List DataRun) (himg : d.img.length < U64)
    (hy : Yields v.runs post) (hcur : ∀ r, v.st.run = some r → RunOk d.img r)
    (hpost : ∀ r ∈ post, RunOk d.img r) (hbr : br < buf.length)
    (hns : ∀ r ∈ pending v.st post, r.position ≠ none)
    (hfuel : post.length < fuel) (hrest : restBytes d.img (pending v.st post) ≠ [])
    (hsz : v.st.streamPosition < v.st.dataSize) :
    ∃ v', NonRes.readLoop fuel v buf br d = (.err (.io e), v', buf, { d with sched := s }) ∧
      v'.st.streamPosition = v.st.streamPosition ∧
      (∀ r, v'.st.run = some r → r ∈ pending v.st post) := by
  induction fuel generalizing v post with
  | zero => omega
  | succ fuel ih =>
    unfold NonRes.readLoop
    rw [if_pos hbr]
    by_cases hskip : ∀ r, v.st.run = some r →
        r.allocatedSize ≤ r.streamPosition ∨ v.st.dataSize ≤ v.st.streamPosition
    · rw [readDataRun_skip _ _ _ _ hskip]
      dsimp only
      have hpend : restBytes d.img (pending v.st post) = restBytes d.img post := by
        cases hr : v.st.run with
        | none => simp [pending, hr]
        | some r =>
          rcases hskip r hr with h | h
          · simp [pending, hr, restBytes_cons, runBytes_end _ _ h]
          · omega
      cases post with
      | nil => rw [hpend] at hrest; simp at hrest
      | cons x xs =>
        obtain ⟨runs', e', hy'⟩ := nextDataRun_step v x xs hy
        rw [e']
        dsimp only
        obtain ⟨v', g1, g2, g3⟩ := ih { v with runs := runs', st := { v.st with run := some x } } xs hy'
            (by intro r hr; injection hr with hr; subst hr; exact hpost _ (by simp))
            (fun r hr => hpost r (by simp [hr]))
            (by intro r hr; exact hns r (by simp [pending] at hr ⊢; simp [hr]))
            (by simp at hfuel; omega) (by rw [hpend] at hrest; simpa [pending] using hrest) hsz
        refine ⟨v', g1, g2, ?_⟩
        intro r hr
        have := g3 r hr
        simp [pending] at this ⊢
        simp [this]
    · have hr : ∃ r, v.st.run = some r ∧ r.streamPosition < r.allocatedSize := by
        cases hr : v.st.run with
        | none => exact absurd (fun r h => by rw [hr] at h; cases h) hskip
        | some r =>
          refine ⟨r, rfl, ?_⟩
          by_cases hh : r.allocatedSize ≤ r.streamPosition ∨ v.st.dataSize ≤ v.st.streamPosition
          · exact absurd (fun r' h => by rw [hr] at h; injection h with h; subst h; exact hh) hskip
          · omega
      obtain ⟨r, hr, hlt2⟩ := hr
      have hok := hcur r hr
      have hp : ∃ q, r.position = some q := by
        have := hns r (by simp [pending, hr])
        cases h : r.position with
        | none => exact absurd h this
        | some q => exact ⟨q, rfl⟩
      obtain ⟨q, hq⟩ := hp
      have hin := hok.inside q hq
      have hread : ∀ b, r.read b d = (.err (.io e), r, b, { d with sched := s }) := by
        intro b
        unfold DataRun.read
        rw [if_neg (by unfold DataRun.remainingLen; omega)]
        dsimp only
        rw [hq]
        dsimp only
        rw [if_pos (by omega)]
        simp only [Dev.seekStart, hs]
      have : v.st.readDataRun buf br d = (.err (.io e), v.st, buf, br, { d with sched := s }) := by
        unfold StreamState.readDataRun
        rw [hr]
        dsimp only
        rw [if_neg (by omega), if_neg (by omega), hread]
        dsimp only
        have hk : br + min (buf.length - br) (v.st.dataSize - v.st.streamPosition) - br =
            min (buf.length - br) (v.st.dataSize - v.st.streamPosition) := by omega
        rw [hk]
        have : overwrite ((buf.drop br).take
            (min (buf.length - br) (v.st.dataSize - v.st.streamPosition))) 0 [] =
            (buf.drop br).take (min (buf.length - br) (v.st.dataSize - v.st.streamPosition)) :=
          overwrite_nil _ _
        rw [← this, overwrite_slice _ _ _ _ (by simp) (by omega), overwrite_nil, ← hr]
      rw [this]
      exact ⟨v, rfl, rfl, fun r h => by simp [pending, h]⟩

theorem readExactLoop_interrupts (img : Bytes) (all : List DataRun) (size : Nat)
    (himg : img.length < U64) (hns : ∀ r ∈ all, r.position ≠ none) (k fuel : Nat) (v : NonRes)
    (d : Dev) (s : List Resp) (done buf : Bytes) (hg : v.Good img all)
    (hcur : ∀ r, v.st.run = some r → r.position ≠ none)
    (hi : d.img = img) (hsz : v.st.dataSize = size)
    (hs : d.sched = List.replicate k (.fail .interrupted) ++ s) (hnf : Dev.NoFail ⟨img, 0, s⟩)
    (hf : buf.length + k < fuel) :
    ∃ W v' d', W = ((restBytes img all).take size).drop v.st.streamPosition ∧
      readExactLoop NonRes.readFn fuel (v, d) done buf =
        (if buf.length ≤ W.length then .ok () else .err (.io .unexpectedEof), (v', d'),
          done ++ W.take buf.length ++ buf.drop (W.take buf.length).length) ∧
      v'.st.streamPosition = v.st.streamPosition + (W.take buf.length).length := by
  induction k generalizing fuel v d with
  | zero =>
    have hd : d.NoFail := by
      intro r hr e
      rw [hs] at hr
      exact hnf r (by simpa using hr) e
    obtain ⟨⟨v', d'⟩, _, h1, _, h2⟩ := readExactLoop_readsLike
      (NonRes.readsLike img all size himg) fuel (v, d) done buf ⟨hg, hd, hi, hsz⟩ (by omega)
    exact ⟨_, v', d', rfl, h1, h2⟩
  | succ k ih =>
    obtain ⟨W, hW⟩ : ∃ W, W = ((restBytes img all).take size).drop v.st.streamPosition := ⟨_, rfl⟩
    cases fuel with
    | zero => omega
    | succ fuel =>
    by_cases hb : buf.length = 0
    · have : buf = [] := List.eq_nil_of_length_eq_zero hb
      subst this
      exact ⟨W, v, d, hW, by simp [readExactLoop], by simp⟩
    obtain ⟨m, v', buf', d', h1, h2, h3, h4, h5, h6, h7, h8, h9, h10⟩ :=
      NonRes.read_any img all v hg himg buf d hi
    rw [hsz, ← hW] at h2 h3 h4
    by_cases hW0 : W = []
    · -- nothing left: no device call happens
      subst hW0
      rcases h4 with ⟨k1, k2, k3⟩ | ⟨e, k1, k2, k3, k4, k5⟩
      · have hm : m = 0 := by simpa using h3
        subst hm
        refine ⟨[], v', d', hW, ?_, by rw [h8]; simp⟩
        unfold readExactLoop
        rw [if_neg hb]
        simp only [NonRes.readFn, k1]
        rw [if_pos trivial, if_neg (by simp; intro h; simp [h] at hb), h2]
        simp
      · simp at k5
    · -- the first device call is interrupted
      obtain ⟨post, hy, hsub, hlen, hp⟩ := hg.pend
      have hWl : 0 < W.length := List.length_pos_iff.2 hW0
      have hfew := hg.few
      rw [hW] at hWl
      simp only [List.length_drop, List.length_take] at hWl
      have hp : restBytes img (pending v.st post) = (restBytes img all).drop v.st.streamPosition := by
        rcases hp with hp | hp
        · exact hp.bytes
        · omega
      obtain ⟨w, hw, hwp, hwr⟩ := readLoop_failFirst (buf.length + v.data.length + v.runs.data.length + 2) v buf 0 d .interrupted
        (List.replicate k (.fail .interrupted) ++ s) (by rw [hs, List.replicate_succ]; rfl) post
        (by rw [hi]; exact himg) hy (by rw [hi]; exact hg.curOk)
        (by rw [hi]; exact fun r hr => (hg.allOk r (hsub r hr)).1) (by omega)
        (by
          intro r hr
          rcases List.mem_append.1 hr with hr | hr
          · exact hcur r (by simpa using hr)
          · exact hns r (hsub r hr))
        (by omega)
        (by
          rw [hi, hp]
          intro h
          have := congrArg List.length h
          simp at this
          omega)
        (by omega)
      have hread : v.read buf d = (.err (.io .interrupted), w, buf,
          { d with sched := List.replicate k (.fail .interrupted) ++ s }) := hw
      rcases h4 with ⟨k1, k2, k3⟩ | ⟨e, k1, k2, k3, k4, k5⟩
      · rw [hread] at k1; cases k1
      · have hvw : w = v' ∧ buf = buf' ∧
            d' = { d with sched := List.replicate k (.fail .interrupted) ++ s } := by
          rw [hread] at k1
          simp only [Prod.mk.injEq] at k1
          exact ⟨k1.2.1, k1.2.2.1, k1.2.2.2.symm⟩
        obtain ⟨rfl, hbb, rfl⟩ := hvw
        obtain ⟨W2, v2, d2, g1, g2, g3⟩ := ih fuel w
          { d with sched := List.replicate k (.fail .interrupted) ++ s } h5
          (by
            intro r hr
            rcases List.mem_append.1 (hwr r hr) with hr | hr
            · exact hcur r (by simpa using hr)
            · exact hns r (hsub r hr))
          hi (by rw [h7, hsz]) rfl (by omega)
        rw [hwp, ← hW] at g1
        subst g1
        refine ⟨W2, v2, d2, hW, ?_, by rw [g3, hwp]⟩
        rw [← g2]
        conv => lhs; unfold readExactLoop
        rw [if_neg hb]
        simp only [NonRes.readFn, hread]
        rw [if_pos trivial]

theorem readDataRun_position (s : StreamState) (buf : Bytes) (br : Nat) (d : Dev) :
    (s.readDataRun buf br d).2.1.run.map DataRun.position = s.run.map DataRun.position := by
  have hrd : ∀ (r : DataRun) (b : Bytes), (r.read b d).2.1.position = r.position := by
    intro r b
    unfold DataRun.read
    repeat' first | split | rfl | dsimp only
  unfold StreamState.readDataRun
  cases hr : s.run with
  | none => simp [hr]
  | some r =>
    have h := hrd r ((buf.drop br).take
      (br + min (buf.length - br) (s.dataSize - s.streamPosition) - br))
    dsimp only
    split
    · simp [hr]
    · split
      · simp [hr]
      · split <;> rename_i heq <;> rw [heq] at h <;> try split
        all_goals simpa using h

theorem seekDataRun_position (s : StreamState) (pos : SeekFrom) (left : Nat) :
    (s.seekDataRun pos left).2.1.run.map DataRun.position = s.run.map DataRun.position := by
  have hsk : ∀ (r : DataRun) (p : SeekFrom), (r.seek p).2.position = r.position := by
    intro r p; rfl
  unfold StreamState.seekDataRun
  cases hr : s.run with
  | none => simp [hr]
  | some r =>
    dsimp only
    split
    · split
      · have h := hsk r (.start left)
        split <;> rename_i heq <;> rw [heq] at h <;> simpa using h
      · have h := hsk r (.current (toI64 left))
        split <;> rename_i heq <;> rw [heq] at h <;> simpa using h
      · simp [hr]
    · simp [hr]

/-- Every run a reader works on comes from the run list. -/
theorem readLoop_position (Q : Pos → Prop) (fuel : Nat) (v : NonRes) (buf : Bytes) (br : Nat) (d : Dev)
    (post : List DataRun) (hy : Yields v.runs post) (hpost : ∀ r ∈ post, Q r.position)
    (hcur : ∀ r, v.st.run = some r → Q r.position) :
    ∀ r, (NonRes.readLoop fuel v buf br d).2.1.st.run = some r → Q r.position := by
  induction fuel generalizing v buf br d post with
  | zero => exact hcur
  | succ fuel ih =>
    unfold NonRes.readLoop
    split
    case isFalse => exact hcur
    have hp := readDataRun_position v.st buf br d
    have hcur' : ∀ r, (v.st.readDataRun buf br d).2.1.run = some r → Q r.position := by
      intro r hr
      rw [hr] at hp
      cases hv : v.st.run with
      | none => rw [hv] at hp; cases hp
      | some r0 =>
        rw [hv] at hp
        have := hcur r0 hv
        simp at hp
        rwa [hp]
    split <;> rename_i heq <;> rw [heq] at hcur' <;> dsimp only at hcur'
    · exact ih _ _ _ _ post hy hpost hcur'
    · rename_i st' buf' br' d'
      cases post with
      | nil =>
        obtain ⟨runs', e, hy'⟩ := nextDataRun_done' { v with st := st' } hy
        rw [e]; exact hcur'
      | cons x xs =>
        obtain ⟨runs', e, hy'⟩ := nextDataRun_step { v with st := st' } x xs hy
        rw [e]
        refine ih _ _ _ _ xs hy' (fun r hr => hpost r (by simp [hr])) ?_
        intro r hr; injection hr with hr; subst hr; exact hpost _ (by simp)
    all_goals exact hcur'

theorem seekLoop_position (Q : Pos → Prop) (fuel : Nat) (v : NonRes) (pos : SeekFrom) (left : Nat)
    (post : List DataRun) (hy : Yields v.runs post) (hpost : ∀ r ∈ post, Q r.position)
    (hcur : ∀ r, v.st.run = some r → Q r.position) :
    ∀ r, (NonRes.seekLoop fuel v pos left).2.st.run = some r → Q r.position := by
  induction fuel generalizing v left post with
  | zero => exact hcur
  | succ fuel ih =>
    unfold NonRes.seekLoop
    split
    case isFalse => exact hcur
    have hp := seekDataRun_position v.st pos left
    have hcur' : ∀ r, (v.st.seekDataRun pos left).2.1.run = some r → Q r.position := by
      intro r hr
      rw [hr] at hp
      cases hv : v.st.run with
      | none => rw [hv] at hp; cases hp
      | some r0 =>
        rw [hv] at hp
        have := hcur r0 hv
        simp at hp
        rwa [hp]
    split <;> rename_i heq <;> rw [heq] at hcur' <;> dsimp only at hcur'
    · exact hcur'
    · rename_i st' left'
      cases post with
      | nil =>
        obtain ⟨runs', e, hy'⟩ := nextDataRun_done' { v with st := st' } hy
        rw [e]; intro r hr; cases hr
      | cons x xs =>
        obtain ⟨runs', e, hy'⟩ := nextDataRun_step { v with st := st' } x xs hy
        rw [e]
        refine ih _ _ xs hy' (fun r hr => hpost r (by simp [hr])) ?_
        intro r hr; injection hr with hr; subst hr; exact hpost _ (by simp)
    all_goals exact hcur'

theorem NonRes.run_position (Q : Pos → Prop) (img : Bytes) (all : List DataRun)
    (himg : img.length < U64) (hQ : ∀ r ∈ all, Q r.position)
    (ops : List Op) (hops : ∀ op ∈ ops, op.InRange) (v : NonRes) (hg : v.Good img all) (d : Dev)
    (hd : d.NoFail) (hi : d.img = img) (hcur : ∀ r, v.st.run = some r → Q r.position) :
    ∀ r, (v.run d ops).2.1.st.run = some r → Q r.position := by
  induction ops generalizing v d with
  | nil => exact hcur
  | cons op ops ih =>
    obtain ⟨h1, h2, h3, h4, h5⟩ :=
      NonRes.step_refines img all v hg himg op (hops op (by simp)) d hd hi
    obtain ⟨post, hy, hsub, _⟩ := hg.pend
    simp only [NonRes.run]
    refine ih (fun o ho => hops o (by simp [ho])) (v.step d op).2.1 h3 (v.step d op).2.2 h4 h5 ?_
    cases op with
    | read buf =>
      simp only [NonRes.step, NonRes.read]
      exact readLoop_position Q _ v buf 0 d post hy (fun r hr => hQ r (hsub r hr)) hcur
    | seek s =>
      have hrw : ∀ v1, v.rewind.2 = v1 → ∃ post1, Yields v1.runs post1 ∧
          (∀ r ∈ post1, Q r.position) ∧ (∀ r, v1.st.run = some r → Q r.position) := by
        rintro v1 rfl
        obtain ⟨v1, post1, g1, _, _, _, _, g6, _, g8, g9, _⟩ := NonRes.rewind_good img all v hg
        rw [g1]
        exact ⟨post1, g6, fun r hr => hQ r (g9 r hr), fun r hr => hQ r (g8 r hr)⟩
      have hsl : ∀ n, ∀ r, (NonRes.seekLoop (v.data.length + 2) v (.current n) n.toNat).2.st.run = some r →
          Q r.position :=
        fun n => seekLoop_position Q _ v _ _ post hy (fun r hr => hQ r (hsub r hr)) hcur
      simp only [NonRes.step]
      unfold NonRes.seek
      split
      · exact hcur
      · exact hcur
      · exact hcur
      · rename_i n _
        obtain ⟨post1, g1, g2, g3⟩ := hrw _ rfl
        have hs1 := seekLoop_position Q (v.data.length + 2) v.rewind.2 (.start n) n post1 g1 g2 g3
        split
        · rename_i v1 heq
          rw [heq] at hs1
          dsimp only at hs1
          split <;> rename_i heq2 <;> rw [heq2] at hs1 <;> exact hs1
        all_goals (rename_i heq; rw [heq] at g3; exact g3)
      · rename_i n _
        have hs1 := hsl n
        split
        · split
          · rename_i heq2; rw [heq2] at hs1
            split <;> exact hs1
          all_goals (rename_i heq2; rw [heq2] at hs1; exact hs1)
        · exact hcur
      · exact hcur

/-- C07, the part that holds: on a value without sparse runs, any number of interruptions before the
first byte of a `read_exact` is delivered (`k` interrupted device calls in a row) do not change its
outcome. Missing: interruptions after part of the call has been delivered, see `C07_negation`. -/
theorem C07_before_first_byte_partial (cs : Nat) (img data : Bytes) (es : List Extent) (p : Pos)
    (size : Nat) (h : StoredAs cs img data es) (hsize : size < U64)
    (hns : ∀ e ∈ es, e.lcn ≠ none) (d : Dev) (hd : d.NoFail) (hi : d.img = img)
    (ops : List Op) (hops : ∀ op ∈ ops, op.InRange) (buf : Bytes) (k : Nat) :
    ∃ v v1 d1 v2 d2, NonRes.new cs data p size = .ok v ∧ (v.run d ops).2 = (v1, d1) ∧
      v1.readExact buf { d1 with sched := List.replicate k (.fail .interrupted) ++ d1.sched } =
        (((Flat.run ⟨(content cs img es).take size, size, 0⟩ ops).2.readExact buf).1, (v2, d2),
          ((Flat.run ⟨(content cs img es).take size, size, 0⟩ ops).2.readExact buf).2.2) ∧
      v2.streamPosition =
        ((Flat.run ⟨(content cs img es).take size, size, 0⟩ ops).2.readExact buf).2.1 := by
  obtain ⟨v, h1, h2, h3, h4, _, post0, _, hall0⟩ := NonRes.new_good h p size hsize
  obtain ⟨i1, i2, i3, i4, i5⟩ := NonRes.run_refines img _ h.imgLt ops hops v h2 d hd hi
  have hall : ∀ r ∈ es.map (runOf cs), r.position ≠ none := by
    intro r hr
    obtain ⟨e, he, rfl⟩ := List.mem_map.1 hr
    have := hns e he
    rcases e with ⟨c, _ | l⟩
    · exact absurd rfl this
    · simp [runOf]
  have hcur : ∀ r, v.st.run = some r → r.position ≠ none := by
    intro r hr
    exact hall r (by rw [← hall0, hr]; simp)
  have hcur' := NonRes.run_position (· ≠ none) img _ h.imgLt hall ops hops v h2 d hd hi hcur
  have hf : v.flat img (es.map (runOf cs)) =
      { content := (content cs img es).take size, len := size, pos := 0 } := by
    unfold NonRes.flat
    rw [restBytes_runOf, h3, h4]
  rw [hf] at i2
  have hsz : (v.run d ops).2.1.st.dataSize = size := by
    have := congrArg Flat.len i2
    rw [Flat.run_len] at this
    exact this
  have hfl : (v.run d ops).2.1.flat img (es.map (runOf cs)) =
      ⟨(restBytes img (es.map (runOf cs))).take size, size, (v.run d ops).2.1.st.streamPosition⟩ := by
    unfold NonRes.flat
    rw [hsz]
  rw [hfl] at i2
  rw [← i2, flat_readExact_eq]
  obtain ⟨W, v', d', rfl, g1, g2⟩ := readExactLoop_interrupts img (es.map (runOf cs)) size h.imgLt hall k
    (buf.length + (List.replicate k (Resp.fail .interrupted) ++ (v.run d ops).2.2.sched).length + 1)
    (v.run d ops).2.1
    { (v.run d ops).2.2 with
      sched := List.replicate k (.fail .interrupted) ++ (v.run d ops).2.2.sched }
    (v.run d ops).2.2.sched [] buf i3 hcur' i5 hsz rfl (fun r hr e => i4 r hr e) (by simp; omega)
  refine ⟨v, (v.run d ops).2.1, (v.run d ops).2.2, v', d', h1, rfl, ?_, ?_⟩
  · unfold NonRes.readExact
    rw [g1]
    dsimp only
    rw [List.nil_append]
  · exact g2

/-- A value with two adjacent runs and no sparse run satisfies the hypotheses of
`C07_before_first_byte_partial` and of the other theorems here. -/
example : StoredAs 4 [0, 1, 2, 3, 4, 5, 6, 7, 8, 9, 10, 11] [0x11, 1, 1, 0x11, 1, 1]
    [⟨1, some 1⟩, ⟨1, some 2⟩] ∧ ∀ e ∈ [(⟨1, some 1⟩ : Extent), ⟨1, some 2⟩], e.lcn ≠ none where
  left :=
    { clusterPos := by decide
      enc := by
        refine .run 0 1 1 _ _ _ ?_ (.run _ 1 1 _ _ _ ?_ (.atEnd _))
        · simp [WidthsOk, FitsSigned]
        · simp [WidthsOk, FitsSigned, Extent.lcnAfter]
      rep := by simp [Representable]
      nonZero := by simp [NonZero, Extent.lcnAfter]
      inImage := by simp [InImage]
      imgLt := by decide }
  right := by simp

/-- `read_exact` past the end: the two remaining bytes, then `UnexpectedEof`. -/
example : (Flat.readExact ⟨[1, 2, 3, 4], 4, 2⟩ [9, 9, 9]) =
    (.err (.io .unexpectedEof), 4, [3, 4, 9]) := by decide

/-- C07 is violated: the value is 04 05 06 07 08 09 0a 0b; the device interrupts the third call (the
seek to the second run). `read_exact` of 4 bytes at position 2 succeeds with the bytes at positions 4
to 7 instead of 2 to 5. -/
theorem C07_negation : ∃ v, NonRes.new 4 [0x11, 1, 1, 0x11, 1, 1] none 8 = .ok v ∧
    ∃ v1, v.seek (.start 2) = (.ok 2, v1) ∧
    (v1.readExact [77, 77, 77, 77] ⟨[0, 1, 2, 3, 4, 5, 6, 7, 8, 9, 10, 11], 0, []⟩).1 = .ok () ∧
    (v1.readExact [77, 77, 77, 77] ⟨[0, 1, 2, 3, 4, 5, 6, 7, 8, 9, 10, 11], 0, []⟩).2.2 =
      [6, 7, 8, 9] ∧
    (v1.readExact [77, 77, 77, 77] ⟨[0, 1, 2, 3, 4, 5, 6, 7, 8, 9, 10, 11], 0,
      [.chunk 9, .chunk 9, .fail .interrupted]⟩).1 = .ok () ∧
    (v1.readExact [77, 77, 77, 77] ⟨[0, 1, 2, 3, 4, 5, 6, 7, 8, 9, 10, 11], 0,
      [.chunk 9, .chunk 9, .fail .interrupted]⟩).2.2 = [8, 9, 10, 11] := by
  exact ⟨_, rfl, _, rfl, by decide, by decide, by decide, by decide⟩

/-- `C06_non_resident` and `C06_terminates` on a value of three runs. The second device fails again and again. -/
example := C06_non_resident 4 _ _ _ none 10 exampleStored (by decide)
  ⟨[0, 1, 2, 3, 4, 5, 6, 7, 8, 9, 10, 11], 0, [.chunk 1, .chunk 1]⟩ (by simp [Dev.NoFail]) rfl
  [.seek (.start 2), .read [7, 7, 7]] (by decide) [1, 2, 3, 4, 5, 6]
example := C06_terminates 4 _ _ _ none 10 exampleStored (by decide)
  ⟨[0, 1, 2, 3, 4, 5, 6, 7, 8, 9, 10, 11], 0, [.fail .interrupted, .chunk 1, .fail .interrupted]⟩ rfl [1, 2, 3, 4, 5, 6]

theorem exampleDense : StoredAs 4 [0, 1, 2, 3, 4, 5, 6, 7, 8, 9, 10, 11] [0x11, 1, 1, 0x11, 1, 1]
    [⟨1, some 1⟩, ⟨1, some 2⟩] where
  clusterPos := by decide
  enc := by
    refine .run 0 1 1 _ _ _ ?_ (.run _ 1 1 _ _ _ ?_ (.atEnd _))
    · simp [WidthsOk, FitsSigned]
    · simp [WidthsOk, FitsSigned, Extent.lcnAfter]
  rep := by simp [Representable]
  nonZero := by simp [NonZero, Extent.lcnAfter]
  inImage := by simp [InImage]
  imgLt := by decide

/-- `C07_before_first_byte_partial` on a value without sparse runs. -/
example := C07_before_first_byte_partial 4 _ _ _ none 8 exampleDense (by decide) (by simp)
  ⟨[0, 1, 2, 3, 4, 5, 6, 7, 8, 9, 10, 11], 0, [.chunk 1]⟩ (by simp [Dev.NoFail]) rfl
  [.seek (.start 1)] (by decide) [1, 2, 3, 4] 3

end NT
