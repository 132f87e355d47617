import Verif.Lemmas.Stream
import Verif.Props.C08_DataRuns
import Verif.Spec.FlatFile

namespace NT

open Spec

/-- One user operation on a non-resident value; the device goes through. -/
def NonRes.step (v : NonRes) (d : Dev) : Op → Out × NonRes × Dev
  | .read buf =>
    let (r, v', buf', d') := v.read buf d
    ({ result := r, buf := buf' }, v', d')
  | .seek s =>
    let (r, v') := v.seek s
    ({ result := r, buf := [] }, v', d)

/-- A history of user operations on a non-resident value. -/
def NonRes.run (v : NonRes) (d : Dev) : List Op → List Out × NonRes × Dev
  | [] => ([], v, d)
  | op :: ops =>
    let (o, v', d') := v.step d op
    let (os, v'', d'') := v'.run d' ops
    (o :: os, v'', d'')

/-- `optimize_seek` never changes the target. -/
theorem optimizeSeek_spec (s : StreamState) (pos : SeekFrom) (size : Nat) (hpos : pos.InRange)
    (hsp : s.streamPosition < U64) (hsize : size < U64) :
    s.optimizeSeek pos size =
      if validTarget (seekTarget s.streamPosition size pos) then
        if s.streamPosition ≤ (seekTarget s.streamPosition size pos).toNat ∧
            (seekTarget s.streamPosition size pos).toNat - s.streamPosition < I63 then
          .ok (.current (((seekTarget s.streamPosition size pos).toNat - s.streamPosition : Nat) : Int))
        else .ok (.start (seekTarget s.streamPosition size pos).toNat)
      else .err (.io .invalidInput) := by
  have hstart : ∀ t : Nat, (match (Res.ok (SeekFrom.start t) : Res SeekFrom) with
      | .ok (.start n) =>
        match checkedSub n s.streamPosition with
        | some m => if m < I63 then (.ok (.current (m : Int)) : Res SeekFrom) else .ok (.start n)
        | none => .ok (.start n)
      | r => r) =
      if s.streamPosition ≤ t ∧ t - s.streamPosition < I63 then
          .ok (.current ((t - s.streamPosition : Nat) : Int))
        else .ok (.start t) := by
    intro t
    dsimp only
    unfold checkedSub
    by_cases h1 : s.streamPosition ≤ t
    · rw [if_pos h1]
      dsimp only
      by_cases h2 : t - s.streamPosition < I63
      · rw [if_pos h2, if_pos ⟨h1, h2⟩]
      · rw [if_neg h2, if_neg (by omega)]
    · rw [if_neg h1, if_neg (by omega)]
  unfold StreamState.optimizeSeek
  cases pos with
  | start n =>
    simp only [SeekFrom.InRange] at hpos
    have hv : validTarget (seekTarget s.streamPosition size (.start n)) := by
      simp only [validTarget, seekTarget]; omega
    have e : (seekTarget s.streamPosition size (.start n)).toNat = n := by simp [seekTarget]
    rw [if_pos hv, e]
    exact hstart n
  | end_ n =>
    simp only [SeekFrom.InRange] at hpos
    simp only [StreamState.simplifySeek]
    by_cases hn : 0 ≤ n
    · rw [if_pos hn]
      unfold checkedAddU64
      by_cases hv : size + n.toNat < U64
      · have h : validTarget (seekTarget s.streamPosition size (.end_ n)) := by
          simp only [validTarget, seekTarget]; omega
        have e : (seekTarget s.streamPosition size (.end_ n)).toNat = size + n.toNat := by
          simp only [seekTarget]; omega
        rw [if_pos hv, if_pos h, e]
        exact hstart _
      · have h : ¬ validTarget (seekTarget s.streamPosition size (.end_ n)) := by
          simp only [validTarget, seekTarget]; omega
        rw [if_neg hv, if_neg h]
    · rw [if_neg hn]
      unfold checkedSub negAsU64
      by_cases hv : n.natAbs ≤ size
      · have h : validTarget (seekTarget s.streamPosition size (.end_ n)) := by
          simp only [validTarget, seekTarget]; omega
        have e : (seekTarget s.streamPosition size (.end_ n)).toNat = size - n.natAbs := by
          simp only [seekTarget]; omega
        rw [if_pos hv, if_pos h, e]
        exact hstart _
      · have h : ¬ validTarget (seekTarget s.streamPosition size (.end_ n)) := by
          simp only [validTarget, seekTarget]; omega
        rw [if_neg hv, if_neg h]
  | current n =>
    simp only [SeekFrom.InRange] at hpos
    simp only [StreamState.simplifySeek]
    by_cases hn : 0 ≤ n
    · rw [if_pos hn]
      unfold checkedAddU64
      by_cases hv : s.streamPosition + n.toNat < U64
      · have h : validTarget (seekTarget s.streamPosition size (.current n)) := by
          simp only [validTarget, seekTarget]; omega
        have e : (seekTarget s.streamPosition size (.current n)).toNat =
            s.streamPosition + n.toNat := by
          simp only [seekTarget]; omega
        rw [if_pos hv, if_pos h, e, if_pos (by omega)]
        dsimp only
        congr 2
        omega
      · have h : ¬ validTarget (seekTarget s.streamPosition size (.current n)) := by
          simp only [validTarget, seekTarget]; omega
        rw [if_neg hv, if_neg h]
    · rw [if_neg hn]
      unfold checkedSub negAsU64
      by_cases hv : n.natAbs ≤ s.streamPosition
      · have h : validTarget (seekTarget s.streamPosition size (.current n)) := by
          simp only [validTarget, seekTarget]; omega
        have e : (seekTarget s.streamPosition size (.current n)).toNat =
            s.streamPosition - n.natAbs := by
          simp only [seekTarget]; omega
        rw [if_pos hv, if_pos h, e]
        exact hstart _
      · have h : ¬ validTarget (seekTarget s.streamPosition size (.current n)) := by
          simp only [validTarget, seekTarget]; omega
        rw [if_neg hv, if_neg h]

/-- Invariant of a reader over the runs `all` (none of them read from yet). -/
structure NonRes.Good (img : Bytes) (all : List DataRun) (v : NonRes) : Prop where
  fresh : Yields v.dataRuns all
  allOk : ∀ r ∈ all, RunOk img r ∧ r.streamPosition = 0
  few : all.length ≤ v.data.length
  sizeLt : v.st.dataSize < U64
  posLt : v.st.streamPosition < U64
  curOk : ∀ r, v.st.run = some r → RunOk img r
  pend : ∃ post, Yields v.runs post ∧ (∀ r ∈ post, r ∈ all) ∧ post.length ≤ all.length ∧
    (Shift img (pending v.st post) all v.st.streamPosition ∨
      v.st.dataSize ≤ v.st.streamPosition)

/-- The in-memory file that a reader should behave like. -/
abbrev NonRes.flat (img : Bytes) (all : List DataRun) (v : NonRes) : Flat :=
  { content := (restBytes img all).take v.st.dataSize, len := v.st.dataSize,
    pos := v.st.streamPosition }

theorem NonRes.read_good (img : Bytes) (all : List DataRun) (v : NonRes) (hg : v.Good img all)
    (himg : img.length < U64) (buf : Bytes) (d : Dev) (hd : d.NoFail) (hi : d.img = img) :
    ∃ got v' d', got = (((restBytes img all).take v.st.dataSize).drop v.st.streamPosition).take buf.length ∧
      v.read buf d = (.ok got.length, v', got ++ buf.drop got.length, d') ∧
      v'.Good img all ∧ v'.data = v.data ∧ v'.st.dataSize = v.st.dataSize ∧
      v'.st.streamPosition = v.st.streamPosition + got.length ∧ d'.img = img ∧ d'.NoFail := by
  subst hi
  obtain ⟨post, hy, hsub, hlen, hp⟩ := hg.pend
  have hfew := hg.few
  obtain ⟨got, v', post', d', h1, h2, h3, h4, h5, h6, h7, h8, h9, h10⟩ :=
    readLoop_ok (buf.length + v.data.length + v.runs.data.length + 2) v buf 0 d post hd himg hy hg.curOk
      (fun r hr => (hg.allOk r (hsub r hr)).1) (by omega) (by omega)
  have hgot : got = (((restBytes d.img all).take v.st.dataSize).drop v.st.streamPosition).take
      buf.length := by
    rw [h1, Nat.sub_zero, List.drop_take, List.take_take]
    rcases hp with hp | hp
    · rw [hp.bytes]
    · have : v.st.dataSize - v.st.streamPosition = 0 := by omega
      simp [this]
  have hgl : got.length ≤ v.st.dataSize - v.st.streamPosition := by
    rw [h1, List.length_take]; omega
  have hb : overwrite buf 0 got = got ++ buf.drop got.length := by simp [overwrite]
  refine ⟨got, v', d', hgot, ?_, ?_, by rw [h5], by rw [h5], by rw [h5], h3, h4⟩
  · unfold NonRes.read
    rw [h2, hb, Nat.zero_add]
  · refine ⟨?_, hg.allOk, ?_, ?_, ?_, h7, post', h6, ?_, by omega, ?_⟩
    · rw [h5]; exact hg.fresh
    · rw [h5]; exact hg.few
    · rw [h5]; exact hg.sizeLt
    · rw [h5]
      have := hg.posLt
      have := hg.sizeLt
      dsimp only; omega
    · intro r hr; exact hsub r (h8 r hr)
    · have e1 : v'.st.streamPosition = v.st.streamPosition + got.length := by rw [h5]
      have e2 : v'.st.dataSize = v.st.dataSize := by rw [h5]
      rw [e1, e2]
      rcases h10 with h | h
      · rcases hp with hp | hp
        · left; exact h.trans hp
        · right; omega
      · right; omega

theorem NonRes.rewind_good (img : Bytes) (all : List DataRun) (v : NonRes) (hg : v.Good img all) :
    ∃ v1 post, v.rewind = (.ok (), v1) ∧ v1.data = v.data ∧ v1.dataRuns = v.dataRuns ∧
      v1.st.dataSize = v.st.dataSize ∧ v1.st.streamPosition = 0 ∧
      Yields v1.runs post ∧ v1.st.run.toList ++ post = all ∧ 
      (∀ r, v1.st.run = some r → r ∈ all) ∧ (∀ r ∈ post, r ∈ all) ∧ post.length ≤ all.length := by
  have hy := hg.fresh
  unfold NonRes.rewind
  cases all with
  | nil =>
    obtain ⟨runs', e, hy'⟩ := nextDataRun_done'
      { v with runs := v.dataRuns, st := StreamState.new v.len } hy
    rw [e]
    exact ⟨_, [], rfl, rfl, rfl, rfl, rfl, hy', rfl, (by intro r hr; cases hr), by simp, by simp⟩
  | cons x xs =>
    obtain ⟨runs', e, hy'⟩ := nextDataRun_step
      { v with runs := v.dataRuns, st := StreamState.new v.len } x xs hy
    rw [e]
    refine ⟨_, xs, rfl, rfl, rfl, rfl, rfl, hy', rfl, ?_, ?_, by simp⟩
    · intro r hr; injection hr with hr; simp [hr]
    · intro r hr; simp [hr]

theorem NonRes.seek_good (img : Bytes) (all : List DataRun) (v : NonRes) (hg : v.Good img all)
    (s : SeekFrom) (hs : s.InRange) :
    if validTarget (seekTarget v.st.streamPosition v.st.dataSize s) then
      ∃ v', v.seek s = (.ok (seekTarget v.st.streamPosition v.st.dataSize s).toNat, v') ∧
        v'.Good img all ∧ v'.data = v.data ∧ v'.st.dataSize = v.st.dataSize ∧
        v'.st.streamPosition = (seekTarget v.st.streamPosition v.st.dataSize s).toNat
    else v.seek s = (.err (.io .invalidInput), v) := by
  have hspec := optimizeSeek_spec v.st s v.st.dataSize hs hg.posLt hg.sizeLt
  unfold NonRes.seek
  obtain ⟨t, ht⟩ : ∃ t, t = seekTarget v.st.streamPosition v.st.dataSize s := ⟨_, rfl⟩
  rw [← ht] at hspec ⊢
  by_cases hv : validTarget t
  case neg =>
    rw [if_neg hv] at hspec ⊢
    unfold NonRes.len
    rw [hspec]
  rw [if_pos hv] at hspec ⊢
  have hfew := hg.few
  have hposLt := hg.posLt
  simp only [validTarget] at hv
  by_cases hc : v.st.streamPosition ≤ t.toNat ∧ t.toNat - v.st.streamPosition < I63
  · -- forward
    rw [if_pos hc] at hspec
    unfold NonRes.len
    rw [hspec]
    dsimp only
    rw [if_pos (by omega)]
    obtain ⟨post, hy, hsub, hlen, hp⟩ := hg.pend
    have hn : (((t.toNat - v.st.streamPosition : Nat) : Int)).toNat = t.toNat - v.st.streamPosition :=
      by omega
    rw [hn]
    obtain ⟨v2, post', h1, h2, h3, h4, h5, h6, h7⟩ :=
      seekLoop_ok img (v.data.length + 2) v
        (.current ((t.toNat - v.st.streamPosition : Nat) : Int)) (t.toNat - v.st.streamPosition) post hy
        hg.curOk (fun r hr => hg.allOk r (hsub r hr)) trivial (fun _ _ => hc.2) (by omega)
    rw [h1]
    dsimp only
    have e1 : v2.st.streamPosition = v.st.streamPosition := by rw [h2]
    have e2 : v2.st.dataSize = v.st.dataSize := by rw [h2]
    have e3 : v2.data = v.data := by rw [h2]
    have e4 : v2.dataRuns = v.dataRuns := by rw [h2]; rfl
    have e5 : v.st.streamPosition + (t.toNat - v.st.streamPosition) = t.toNat := by omega
    rw [e1, e5, if_pos (by omega)]
    refine ⟨_, rfl, ⟨?_, hg.allOk, ?_, ?_, ?_, h4, post', h3, ?_, by omega, ?_⟩, e3, e2, rfl⟩
    · exact e4 ▸ hg.fresh
    · dsimp only; rw [e3]; exact hg.few
    · dsimp only; rw [e2]; exact hg.sizeLt
    · dsimp only; omega
    · intro r hr; exact hsub r (h5 r hr)
    · dsimp only
      rw [e2]
      rcases hp with hp | hp
      · left
        have : pending { run := v2.st.run, streamPosition := t.toNat, dataSize := v.st.dataSize } post'
          = pending v2.st post' := rfl
        rw [this]
        exact e5 ▸ h7.trans hp
      · right; omega
  · -- from the start
    rw [if_neg hc] at hspec
    unfold NonRes.len
    rw [hspec]
    dsimp only
    obtain ⟨v1, post, g1, g2, g3, g4, g5, g6, g7, g8, g9, g10⟩ := NonRes.rewind_good img all v hg
    rw [g1]
    dsimp only
    obtain ⟨v2, post', h1, h2, h3, h4, h5, h6, h7⟩ :=
      seekLoop_ok img (v.data.length + 2) v1 (.start t.toNat) t.toNat post g6
        (fun r hr => (hg.allOk r (g8 r hr)).1) (fun r hr => hg.allOk r (g9 r hr))
        (fun r hr => (hg.allOk r (g8 r hr)).2) (by intro n hn; cases hn) (by omega)
    rw [h1]
    dsimp only
    have e2 : v2.st.dataSize = v.st.dataSize := by rw [h2]; exact g4
    have e3 : v2.data = v.data := by rw [h2]; exact g2
    have e4 : v2.dataRuns = v.dataRuns := by rw [← g3, h2]; rfl
    refine ⟨_, rfl, ⟨?_, hg.allOk, ?_, ?_, ?_, h4, post', h3, ?_, by omega, ?_⟩, e3, e2, rfl⟩
    · exact e4 ▸ hg.fresh
    · dsimp only; rw [e3]; exact hg.few
    · dsimp only; rw [e2]; exact hg.sizeLt
    · dsimp only; omega
    · intro r hr; exact g9 r (h5 r hr)
    · left
      have : pending { run := v2.st.run, streamPosition := t.toNat, dataSize := v2.st.dataSize } post'
          = pending v2.st post' := rfl
      dsimp only
      rw [this]
      unfold pending at h7
      rwa [g7] at h7


/-- One step of a reader in a good state is one step of the in-memory file. -/
theorem NonRes.step_refines (img : Bytes) (all : List DataRun) (v : NonRes) (hg : v.Good img all)
    (himg : img.length < U64) (op : Op) (hop : op.InRange) (d : Dev) (hd : d.NoFail)
    (hi : d.img = img) :
    (v.step d op).1 = ((v.flat img all).step op).1 ∧
      ((v.step d op).2.1.flat img all) = ((v.flat img all).step op).2 ∧
      (v.step d op).2.1.Good img all ∧ (v.step d op).2.2.NoFail ∧ (v.step d op).2.2.img = img := by
  cases op with
  | read buf =>
    obtain ⟨got, v', d', h1, h2, h3, h4, h5, h6, h7, h8⟩ :=
      NonRes.read_good img all v hg himg buf d hd hi
    simp only [NonRes.step, h2, Flat.step, ← h1]
    refine ⟨trivial, ?_, h3, h8, h7⟩
    unfold NonRes.flat
    rw [h5, h6]
  | seek s =>
    have h := NonRes.seek_good img all v hg s hop
    simp only [NonRes.step, Flat.step]
    by_cases hv : validTarget (seekTarget v.st.streamPosition v.st.dataSize s)
    · rw [if_pos hv] at h
      obtain ⟨v', h1, h2, h3, h4, h5⟩ := h
      rw [if_pos hv, h1]
      dsimp only
      refine ⟨rfl, ?_, h2, hd, hi⟩
      unfold NonRes.flat
      rw [h4, h5]
    · rw [if_neg hv] at h
      rw [if_neg hv, h]
      exact ⟨rfl, rfl, hg, hd, hi⟩

theorem restBytes_runOf (cs : Nat) (img : Bytes) (es : List Extent) :
    restBytes img (es.map (runOf cs)) = content cs img es := by
  induction es with
  | nil => rfl
  | cons e es ih =>
    simp only [List.map_cons, restBytes_cons, ih, content, List.flatMap_cons]
    congr 1
    rcases e with ⟨c, _ | l⟩ <;> simp [runBytes, runOf, Extent.bytes]

theorem encodes_length (prev : Nat) (es : List Extent) (data : Bytes) (h : Encodes prev es data) :
    es.length ≤ data.length := by
  induction h with
  | atEnd => simp
  | terminated => simp
  | run prev cb lb e es rest hw _ ih =>
    rcases e with ⟨c, _ | l⟩ <;> simp [encodeRun] <;> omega

/-- What the theorems about non-resident values assume about the value on disk: the data runs are an
encoding of `es` (see `Spec.Encodes`) and the stored runs lie inside the image. -/
structure StoredAs (cs : Nat) (img data : Bytes) (es : List Extent) : Prop where
  clusterPos : 0 < cs
  enc : Encodes 0 es data
  rep : ∀ e ∈ es, Representable cs e
  nonZero : NonZero 0 es
  inImage : InImage cs img es
  imgLt : img.length < U64

theorem StoredAs.counts {cs : Nat} {img data : Bytes} {es : List Extent}
    (h : StoredAs cs img data es) : ∀ e ∈ es, 0 < e.count := by
  have key : ∀ prev es data, Encodes prev es data → ∀ e ∈ es, 0 < e.count := by
    intro prev es data h
    induction h with
    | atEnd => simp
    | terminated => simp
    | run prev cb lb e' es rest hw _ ih =>
      intro e he
      rcases List.mem_cons.1 he with he | he
      · subst he; exact hw.2.2.1
      · exact ih e he
  exact key 0 es data h.enc

theorem StoredAs.lcns {cs : Nat} {img data : Bytes} {es : List Extent}
    (h : StoredAs cs img data es) : ∀ e ∈ es, ∀ l, e.lcn = some l → 0 < l := by
  have key : ∀ prev es, NonZero prev es → ∀ e ∈ es, ∀ l, e.lcn = some l → 0 < l := by
    intro prev es
    induction es generalizing prev with
    | nil => simp
    | cons e es ih =>
      intro this x hx l hl
      rcases List.mem_cons.1 hx with hx | hx
      · subst hx; have := (this.1 l hl).1; omega
      · exact ih _ this.2 x hx l hl
  exact key 0 es h.nonZero

theorem StoredAs.runsOk {cs : Nat} {img data : Bytes} {es : List Extent}
    (h : StoredAs cs img data es) :
    ∀ r ∈ es.map (runOf cs), RunOk img r ∧ r.streamPosition = 0 := by
  intro r hr
  obtain ⟨e, he, rfl⟩ := List.mem_map.1 hr
  refine ⟨⟨by simp [runOf], (h.rep e he).1, ?_, Nat.mul_pos (h.counts e he) h.clusterPos, ?_⟩, rfl⟩
  all_goals
    intro p hp
    rcases e with ⟨c, _ | l⟩
    · simp [runOf] at hp
    · simp [runOf] at hp
      have h1 := h.inImage _ he l rfl
      have h2 := h.lcns _ he l rfl
      dsimp only at h1
      first
      | (simp only [runOf]; omega)
      | (subst hp; exact Nat.mul_pos h2 h.clusterPos)

/-- A freshly created value whose iterator yields the runs `all` is in a good state. -/
theorem NonRes.new_good_runs {cs : Nat} {img data : Bytes} {all : List DataRun} (p : Pos)
    (hy : Yields (DataRuns.new cs data p) all) (hok : ∀ r ∈ all, RunOk img r ∧ r.streamPosition = 0)
    (hfew : all.length ≤ data.length) (size : Nat) (hsize : size < U64) :
    ∃ v, NonRes.new cs data p size = .ok v ∧ v.Good img all ∧
      v.st.dataSize = size ∧ v.st.streamPosition = 0 ∧ v.data = data ∧
      ∃ post, Yields v.runs post ∧ v.st.run.toList ++ post = all := by
  unfold NonRes.new
  dsimp only
  cases all with
  | nil =>
    obtain ⟨runs', e, hy'⟩ := nextDataRun_done'
      { clusterSize := cs, data := data, position := p, runs := DataRuns.new cs data p,
        st := StreamState.new size } hy
    rw [e]
    refine ⟨_, rfl, ⟨hy, hok, hfew, hsize, by simp [StreamState.new], ?_, [], hy', by simp, by simp,
      .inl ?_⟩, rfl, rfl, rfl, [], hy', rfl⟩
    · intro r hr; cases hr
    · simpa [pending, StreamState.new] using Shift.refl img _
  | cons x xs =>
    obtain ⟨runs', e, hy'⟩ := nextDataRun_step
      { clusterSize := cs, data := data, position := p, runs := DataRuns.new cs data p,
        st := StreamState.new size } x xs hy
    rw [e]
    refine ⟨_, rfl, ⟨hy, hok, hfew, hsize, by simp [StreamState.new], ?_, xs, hy', ?_, by simp,
      .inl ?_⟩, rfl, rfl, rfl, xs, hy', rfl⟩
    · intro r hr; injection hr with hr; subst hr; exact (hok _ (by simp)).1
    · intro r hr; simp [hr]
    · simpa [pending, StreamState.new] using Shift.refl img _

/-- A freshly created value is in a good state. -/
theorem NonRes.new_good {cs : Nat} {img data : Bytes} {es : List Extent}
    (h : StoredAs cs img data es) (p : Pos) (size : Nat) (hsize : size < U64) :
    ∃ v, NonRes.new cs data p size = .ok v ∧ v.Good img (es.map (runOf cs)) ∧
      v.st.dataSize = size ∧ v.st.streamPosition = 0 ∧ v.data = data ∧
      ∃ post, Yields v.runs post ∧ v.st.run.toList ++ post = es.map (runOf cs) :=
  NonRes.new_good_runs p
    (yields_encoded (DataRuns.new cs data p) es (by simpa [DataRuns.new] using h.enc)
      h.clusterPos h.rep h.nonZero)
    h.runsOk (by rw [List.length_map]; exact encodes_length _ _ _ h.enc) size hsize

theorem NonRes.run_refines (img : Bytes) (all : List DataRun) (himg : img.length < U64)
    (ops : List Op) (hops : ∀ op ∈ ops, op.InRange) (v : NonRes) (hg : v.Good img all) (d : Dev)
    (hd : d.NoFail) (hi : d.img = img) :
    (v.run d ops).1 = ((v.flat img all).run ops).1 ∧
      (v.run d ops).2.1.flat img all = ((v.flat img all).run ops).2 ∧
      (v.run d ops).2.1.Good img all ∧ (v.run d ops).2.2.NoFail ∧ (v.run d ops).2.2.img = img := by
  induction ops generalizing v d with
  | nil => exact ⟨rfl, rfl, hg, hd, hi⟩
  | cons op ops ih =>
    obtain ⟨h1, h2, h3, h4, h5⟩ :=
      NonRes.step_refines img all v hg himg op (hops op (by simp)) d hd hi
    obtain ⟨i1, i2, i3⟩ := ih (fun o ho => hops o (by simp [ho])) (v.step d op).2.1 h3
      (v.step d op).2.2 h4 h5
    simp only [NonRes.run, Flat.run]
    rw [h1, i1, i2, h2]
    exact ⟨rfl, rfl, i3⟩

/-- C01: a non-resident value stored as the extents `es` opens without error, and every history of
reads and seeks on it gives exactly the results (returned numbers, errors, buffer contents) of the
same history on an in-memory file whose contents are the clusters of all runs in order, cut at the
data size. The device may split reads in any way. -/
theorem C01_flat_file (cs : Nat) (img data : Bytes) (es : List Extent) (p : Pos) (size : Nat)
    (h : StoredAs cs img data es) (hsize : size < U64) (d : Dev) (hd : d.NoFail) (hi : d.img = img)
    (ops : List Op) (hops : ∀ op ∈ ops, op.InRange) :
    ∃ v, NonRes.new cs data p size = .ok v ∧
      (v.run d ops).1 =
        (Flat.run { content := (content cs img es).take size, len := size, pos := 0 } ops).1 ∧
      (v.run d ops).2.1.streamPosition =
        (Flat.run { content := (content cs img es).take size, len := size, pos := 0 } ops).2.pos := by
  obtain ⟨v, h1, h2, h3, h4, _⟩ := NonRes.new_good h p size hsize
  obtain ⟨i1, i2, _⟩ := NonRes.run_refines img _ h.imgLt ops hops v h2 d hd hi
  have hf : v.flat img (es.map (runOf cs)) =
      { content := (content cs img es).take size, len := size, pos := 0 } := by
    unfold NonRes.flat
    rw [restBytes_runOf, h3, h4]
  rw [hf] at i1 i2
  exact ⟨v, h1, i1, by rw [← i2]⟩

/-- A small image with clusters of 4 bytes: the value has one cluster at LCN 2, a sparse cluster, and
one at LCN 1; 10 of the 12 bytes are used. -/
theorem exampleStored : StoredAs 4 [0, 1, 2, 3, 4, 5, 6, 7, 8, 9, 10, 11]
    [0x11, 1, 2, 0x01, 1, 0x11, 1, 0xFF, 0] [⟨1, some 2⟩, ⟨1, none⟩, ⟨1, some 1⟩] where
  clusterPos := by decide
  enc := by
    refine .run 0 1 1 _ _ _ ?_ (.run _ 1 0 _ _ _ ?_ (.run _ 1 1 _ _ _ ?_ (.terminated _ [])))
    · simp [WidthsOk, FitsSigned]
    · simp [WidthsOk]
    · simp [WidthsOk, FitsSigned, Extent.lcnAfter]
  rep := by simp [Representable]
  nonZero := by simp [NonZero, Extent.lcnAfter]
  inImage := by simp [InImage]
  imgLt := by decide

example : (content 4 [0, 1, 2, 3, 4, 5, 6, 7, 8, 9, 10, 11]
    [⟨1, some 2⟩, ⟨1, none⟩, ⟨1, some 1⟩]).take 10 = [8, 9, 10, 11, 0, 0, 0, 0, 4, 5] := by decide

/-- A history that crosses runs on a device that delivers one or two bytes per call. -/
example : ((Flat.run { content := [8, 9, 10, 11, 0, 0, 0, 0, 4, 5], len := 10, pos := 0 }
      [.seek (.start 2), .read [7, 7, 7], .seek (.end_ (-3)), .read [7, 7, 7, 7, 7]]).1) =
    [⟨.ok 2, []⟩, ⟨.ok 3, [10, 11, 0]⟩, ⟨.ok 7, []⟩, ⟨.ok 3, [0, 4, 5, 7, 7]⟩] := by decide

/-- The hypotheses of `C01_flat_file`, met by a value of three runs over a device that answers byte by byte. -/
example := C01_flat_file 4 _ _ _ none 10 exampleStored (by decide)
  ⟨[0, 1, 2, 3, 4, 5, 6, 7, 8, 9, 10, 11], 0, [.chunk 1, .chunk 1]⟩ (by simp [Dev.NoFail]) rfl
  [.seek (.start 2), .read [7, 7, 7], .seek (.end_ (-3)), .read [7, 7, 7, 7, 7]] (by decide)

end NT
