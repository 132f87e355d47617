import Verif.Props.C05_ReadContract

namespace NT

open Spec

/-- What every value has, however malformed its data runs are: the iterator works on the value's own
data, and the runs end below 2^64. -/
structure NonRes.Bounded (v : NonRes) : Prop where
  data : v.runs.data = v.data
  cs : v.runs.clusterSize = v.clusterSize
  lcn : v.runs.state.previousLcn < U64
  posLt : v.st.streamPosition < U64
  sizeLt : v.st.dataSize < U64
  /-- every run that this and every later call of the iterator can yield ends below 2^64 -/
  ahead : ∀ n x p, (v.runs.after n).next.1 = some (.ok x) → x.position = some p →
    p + x.allocatedSize ≤ U64
  fresh : ∀ n x p, (v.dataRuns.after n).next.1 = some (.ok x) → x.position = some p →
    p + x.allocatedSize ≤ U64
  cur : ∀ r p, v.st.run = some r → r.position = some p → p + r.allocatedSize ≤ U64

theorem NonRes.nextDataRun_bounded (v : NonRes) (h : v.Bounded) :
    v.nextDataRun.2.Bounded ∧
    ((v.nextDataRun.1 = .ok true ∧
        v.runs.state.offset + 2 ≤ v.nextDataRun.2.runs.state.offset ∧
        v.nextDataRun.2.runs.state.offset ≤ v.data.length) ∨
      v.nextDataRun.1 = .ok false ∨ ∃ e, v.nextDataRun.1 = .err e) := by
  have hnext : ∀ n, v.runs.next.2.after n = v.runs.after (n + 1) := by intro n; rfl
  have hd := v.runs.next_data h.lcn
  have hahead : ∀ n x p, (v.runs.next.2.after n).next.1 = some (.ok x) → x.position = some p →
      p + x.allocatedSize ≤ U64 := by
    intro n; rw [hnext]; exact h.ahead (n + 1)
  unfold NonRes.nextDataRun
  rcases v.runs.next_cases h.lcn with ⟨r', h', h2, h3, h4⟩ | ⟨e, h'⟩ | ⟨l, h', _⟩ |
      ⟨x, o, l, h', h2, h3, h4, _⟩ <;> rw [h'] at hd hahead ⊢ <;> dsimp only at hd hahead ⊢
  · exact ⟨⟨by rw [← h.data]; exact hd.1, by rw [← h.cs]; exact hd.2.1, hd.2.2, h.posLt, h.sizeLt, hahead, h.fresh, h.cur⟩, .inr (.inl rfl)⟩
  · exact ⟨h, .inr (.inr ⟨e, rfl⟩)⟩
  · exact ⟨⟨h.data, h.cs, hd.2.2, h.posLt, h.sizeLt, hahead, h.fresh, h.cur⟩, .inr (.inr ⟨_, rfl⟩)⟩
  · refine ⟨⟨h.data, h.cs, hd.2.2, h.posLt, h.sizeLt, hahead, h.fresh, ?_⟩, .inl ⟨rfl, h2, ?_⟩⟩
    · intro r p hr hp
      injection hr with hr
      subst hr
      exact h.ahead 0 x p (by simp only [DataRuns.after]; rw [h']) hp
    · rw [← h.data]; exact h3

/-- Where a run lies; reading and seeking do not change it. -/
def DataRun.place (r : DataRun) : Pos × Nat := (r.position, r.allocatedSize)

theorem readDataRun_place (s : StreamState) (buf : Bytes) (br : Nat) (d : Dev) :
    (s.readDataRun buf br d).2.1.run.map DataRun.place = s.run.map DataRun.place := by
  have hrd : ∀ (r : DataRun) (b : Bytes), (r.read b d).2.1.place = r.place := by
    intro r b
    unfold DataRun.read
    repeat' first | split | rfl | dsimp only
  unfold StreamState.readDataRun
  cases hr : s.run with
  | none => simp [hr]
  | some r =>
    have h := hrd r ((buf.drop br).take
      (br + min (buf.length - br) (s.dataSize - s.streamPosition) - br))
    dsimp only
    split
    · simp [hr]
    · split
      · simp [hr]
      · split <;> rename_i heq <;> rw [heq] at h <;> try split
        all_goals simpa using h

theorem seekDataRun_place (s : StreamState) (pos : SeekFrom) (left : Nat) :
    (s.seekDataRun pos left).2.1.run.map DataRun.place = s.run.map DataRun.place := by
  have hsk : ∀ (r : DataRun) (p : SeekFrom), (r.seek p).2.place = r.place := by
    intro r p; rfl
  unfold StreamState.seekDataRun
  cases hr : s.run with
  | none => simp [hr]
  | some r =>
    dsimp only
    split
    · split
      · have h := hsk r (.start left)
        split <;> rename_i heq <;> rw [heq] at h <;> simpa using h
      · have h := hsk r (.current (toI64 left))
        split <;> rename_i heq <;> rw [heq] at h <;> simpa using h
      · simp [hr]
    · simp [hr]

theorem cur_of_place {s s' : StreamState}
    (h : s'.run.map DataRun.place = s.run.map DataRun.place)
    (hc : ∀ r p, s.run = some r → r.position = some p → p + r.allocatedSize ≤ U64) :
    ∀ r p, s'.run = some r → r.position = some p → p + r.allocatedSize ≤ U64 := by
  intro r p hr hp
  rw [hr] at h
  cases h0 : s.run with
  | none => rw [h0] at h; cases h
  | some r0 =>
    rw [h0] at h
    simp only [Option.map_some, Option.some.injEq, DataRun.place, Prod.mk.injEq] at h
    have := hc r0 p h0 (by rw [← h.1, hp])
    rw [h.2]; exact this

theorem readLoop_bounded (fuel : Nat) (v : NonRes) (buf : Bytes) (br : Nat) (d : Dev)
    (hb : v.Bounded) (hbr : br ≤ buf.length)
    (hfuel : buf.length - br + (v.data.length - v.runs.state.offset) < fuel) :
    (NonRes.readLoop fuel v buf br d).1.Safe ∧ (NonRes.readLoop fuel v buf br d).2.1.Bounded := by
  induction fuel generalizing v buf br d with
  | zero => omega
  | succ fuel ih =>
    unfold NonRes.readLoop
    by_cases hlt : br < buf.length
    case neg => rw [if_neg hlt]; exact ⟨trivial, hb⟩
    rw [if_pos hlt]
    have hpl := readDataRun_place v.st buf br d
    rcases readDataRun_cases v.st buf br d hbr with ⟨s', b, d', e, h1, h2, h3⟩ | ⟨e, d', he⟩ |
        ⟨e, r, p, hr, hp, hlt2, hov⟩
    · rw [e] at hpl ⊢
      have hb' : NonRes.Bounded { v with st := s' } := by
        refine ⟨hb.data, hb.cs, hb.lcn, ?_, ?_, hb.ahead, hb.fresh, cur_of_place hpl hb.cur⟩
        · have := hb.posLt; have := hb.sizeLt
          dsimp only; rw [h3]; dsimp only; omega
        · dsimp only; rw [h3]; exact hb.sizeLt
      by_cases hb0 : 0 < b.length
      · rw [show (decide (0 < b.length)) = true from by simpa using hb0]
        dsimp only
        have hol : (overwrite buf br b).length = buf.length := overwrite_length h1
        exact ih _ _ _ _ hb' (by omega) (by rw [hol]; dsimp only; omega)
      · rw [show (decide (0 < b.length)) = false from by simpa using hb0]
        have hbn : b = [] := List.eq_nil_of_length_eq_zero (by omega)
        subst hbn
        rw [overwrite_nil]
        dsimp only
        obtain ⟨hn, hcase⟩ := NonRes.nextDataRun_bounded _ hb'
        have hst := nextDataRun_st { v with st := s' }
        cases hnx : NonRes.nextDataRun { v with st := s' } with
        | mk res v' =>
        rw [hnx] at hn hcase hst
        dsimp only at hn hcase hst
        have hvd : v'.data = v.data := by rw [hst]
        rcases hcase with ⟨rfl, g1, g2⟩ | rfl | ⟨x, rfl⟩
        · dsimp only
          exact ih v' _ _ _ hn hbr (by rw [hvd]; simp only [List.length_nil] at *; omega)
        · exact ⟨trivial, hn⟩
        · exact ⟨trivial, hn⟩
    · rw [he]; exact ⟨trivial, hb⟩
    · exfalso
      have := hb.cur r p hr hp
      omega

theorem seekLoop_bounded (fuel : Nat) (v : NonRes) (pos : SeekFrom) (left : Nat)
    (hb : v.Bounded) (hpos : ∀ n, pos ≠ .end_ n)
    (hfuel : v.data.length - v.runs.state.offset < fuel) :
    (NonRes.seekLoop fuel v pos left).1.Safe ∧ (NonRes.seekLoop fuel v pos left).2.Bounded ∧
      (NonRes.seekLoop fuel v pos left).2.st.streamPosition = v.st.streamPosition := by
  induction fuel generalizing v left with
  | zero => omega
  | succ fuel ih =>
    unfold NonRes.seekLoop
    by_cases hlt : left > 0
    case neg => rw [if_neg hlt]; exact ⟨trivial, hb, rfl⟩
    rw [if_pos hlt]
    have hpl := seekDataRun_place v.st pos left
    have hsafe : (v.st.seekDataRun pos left).1.Safe ∧
        (v.st.seekDataRun pos left).2.1.streamPosition = v.st.streamPosition ∧
        (v.st.seekDataRun pos left).2.1.dataSize = v.st.dataSize := by
      have hsc : ∀ (r : DataRun) (p : SeekFrom), (r.seek p).1.Safe := by
        intro r p
        change (seekContiguous r.streamPosition r.allocatedSize p).1.Safe
        unfold seekContiguous
        repeat' first | trivial | split
      unfold StreamState.seekDataRun
      split
      · exact ⟨trivial, rfl, rfl⟩
      · rename_i r hr
        split
        · split
          · have := hsc r (.start left)
            split <;> rename_i heq <;> rw [heq] at this <;>
              first | exact ⟨trivial, rfl, rfl⟩ | exact this.elim
          · have := hsc r (.current (toI64 left))
            split <;> rename_i heq <;> rw [heq] at this <;>
              first | exact ⟨trivial, rfl, rfl⟩ | exact this.elim
          · exact absurd rfl (hpos _)
        · exact ⟨trivial, rfl, rfl⟩
    cases hsd : v.st.seekDataRun pos left with
    | mk res rest =>
    obtain ⟨s', left'⟩ := rest
    rw [hsd] at hpl hsafe
    dsimp only at hpl hsafe
    obtain ⟨hs1, hs2, hs3⟩ := hsafe
    have hb' : NonRes.Bounded { v with st := s' } := by
      refine ⟨hb.data, hb.cs, hb.lcn, ?_, ?_, hb.ahead, hb.fresh, cur_of_place hpl hb.cur⟩
      · dsimp only; rw [hs2]; exact hb.posLt
      · dsimp only; rw [hs3]; exact hb.sizeLt
    cases res with
    | ok t =>
      cases t with
      | true => exact ⟨trivial, hb', hs2⟩
      | false =>
        dsimp only
        obtain ⟨hn, hcase⟩ := NonRes.nextDataRun_bounded _ hb'
        have hst := nextDataRun_st { v with st := s' }
        cases hnx : NonRes.nextDataRun { v with st := s' } with
        | mk res v' =>
        rw [hnx] at hn hcase hst
        dsimp only at hn hcase hst
        have hvd : v'.data = v.data := by rw [hst]
        have hvp : v'.st.streamPosition = v.st.streamPosition := by rw [hst]; exact hs2
        rcases hcase with ⟨rfl, g1, g2⟩ | rfl | ⟨x, rfl⟩
        · dsimp only
          have := ih v' left' hn (by rw [hvd]; omega)
          rw [hvp] at this
          exact this
        · refine ⟨trivial, ⟨hn.data, hn.cs, hn.lcn, hn.posLt, hn.sizeLt, hn.ahead, hn.fresh, ?_⟩, hvp⟩
          intro r p hr; cases hr
        · exact ⟨trivial, hn, hvp⟩
    | err x => exact ⟨trivial, hb', hs2⟩
    | panic x => exact hs1.elim
    | diverge => exact hs1.elim

theorem NonRes.step_bounded (v : NonRes) (d : Dev) (op : Op) (hop : op.InRange) (hb : v.Bounded) :
    (v.step d op).1.result.Safe ∧ (v.step d op).2.1.Bounded := by
  cases op with
  | read buf =>
    have := readLoop_bounded (buf.length + v.data.length + v.runs.data.length + 2) v buf 0 d hb (by omega) (by omega)
    exact this
  | seek s =>
    have hspec := optimizeSeek_spec v.st s v.st.dataSize hop hb.posLt hb.sizeLt
    simp only [NonRes.step]
    unfold NonRes.seek NonRes.len
    rw [hspec]
    obtain ⟨t, ht⟩ : ∃ t, t = seekTarget v.st.streamPosition v.st.dataSize s := ⟨_, rfl⟩
    rw [← ht]
    by_cases hv : validTarget t
    case neg => rw [if_neg hv]; exact ⟨trivial, hb⟩
    rw [if_pos hv]
    simp only [validTarget] at hv
    by_cases hc : v.st.streamPosition ≤ t.toNat ∧ t.toNat - v.st.streamPosition < I63
    · rw [if_pos hc]
      dsimp only
      rw [if_pos (by omega)]
      have hn : (((t.toNat - v.st.streamPosition : Nat) : Int)).toNat =
          t.toNat - v.st.streamPosition := by omega
      rw [hn]
      obtain ⟨h1, h2, h3⟩ := seekLoop_bounded (v.data.length + 2) v
        (.current ((t.toNat - v.st.streamPosition : Nat) : Int)) (t.toNat - v.st.streamPosition) hb
        (by intro n h; cases h) (by omega)
      cases hsl : NonRes.seekLoop (v.data.length + 2) v
        (.current ((t.toNat - v.st.streamPosition : Nat) : Int)) (t.toNat - v.st.streamPosition) with
      | mk res v2 =>
      rw [hsl] at h1 h2 h3
      dsimp only at h1 h2 h3
      cases res with
      | ok u =>
        dsimp only
        have hlt : v2.st.streamPosition + (t.toNat - v.st.streamPosition) < U64 := by
          rw [h3]; omega
        rw [if_pos hlt]
        exact ⟨trivial, ⟨h2.data, h2.cs, h2.lcn, hlt, h2.sizeLt, h2.ahead, h2.fresh, h2.cur⟩⟩
      | err x => exact ⟨trivial, h2⟩
      | panic x => exact h1.elim
      | diverge => exact h1.elim
    · rw [if_neg hc]
      dsimp only
      have hfr : NonRes.Bounded { v with runs := v.dataRuns, st := StreamState.new v.len } :=
        ⟨rfl, rfl, by simp [NonRes.dataRuns, DataRuns.new], by simp [StreamState.new], hb.sizeLt,
          hb.fresh, hb.fresh, by intro r p hr; cases hr⟩
      obtain ⟨hn, hcase⟩ := NonRes.nextDataRun_bounded _ hfr
      have hst := nextDataRun_st { v with runs := v.dataRuns, st := StreamState.new v.len }
      unfold NonRes.rewind
      cases hnx : NonRes.nextDataRun { v with runs := v.dataRuns, st := StreamState.new v.len } with
      | mk res v' =>
      rw [hnx] at hn hcase hst
      dsimp only at hn hcase hst
      have hvd : v'.data = v.data := by rw [hst]
      have key : (match NonRes.seekLoop (v.data.length + 2) v' (.start t.toNat) t.toNat with
          | (.ok (), v2) => ((.ok t.toNat, { v2 with st := { v2.st with streamPosition := t.toNat } }) :
              Res Nat × NonRes)
          | (.err e, v2) => (.err e, v2)
          | (.panic p, v2) => (.panic p, v2)
          | (.diverge, v2) => (.diverge, v2)).1.Safe ∧
        (match NonRes.seekLoop (v.data.length + 2) v' (.start t.toNat) t.toNat with
          | (.ok (), v2) => ((.ok t.toNat, { v2 with st := { v2.st with streamPosition := t.toNat } }) :
              Res Nat × NonRes)
          | (.err e, v2) => (.err e, v2)
          | (.panic p, v2) => (.panic p, v2)
          | (.diverge, v2) => (.diverge, v2)).2.Bounded := by
        obtain ⟨h1, h2, h3⟩ := seekLoop_bounded (v.data.length + 2) v' (.start t.toNat) t.toNat hn
          (by intro n h; cases h) (by rw [hvd]; omega)
        cases hsl : NonRes.seekLoop (v.data.length + 2) v' (.start t.toNat) t.toNat with
        | mk res v2 =>
        rw [hsl] at h1 h2 h3
        dsimp only at h1 h2 h3
        cases res with
        | ok u =>
          exact ⟨trivial, ⟨h2.data, h2.cs, h2.lcn, by dsimp only; omega, h2.sizeLt, h2.ahead,
            h2.fresh, h2.cur⟩⟩
        | err x => exact ⟨trivial, h2⟩
        | panic x => exact h1.elim
        | diverge => exact h1.elim
      rcases hcase with ⟨rfl, _⟩ | rfl | ⟨x, rfl⟩
      · exact key
      · exact key
      · exact ⟨trivial, hn⟩

theorem NonRes.run_bounded (ops : List Op) (hops : ∀ op ∈ ops, op.InRange) (v : NonRes) (d : Dev)
    (hb : v.Bounded) : ∀ o ∈ (v.run d ops).1, o.result.Safe := by
  induction ops generalizing v d with
  | nil => intro o ho; cases ho
  | cons op ops ih =>
    obtain ⟨h1, h2⟩ := v.step_bounded d op (hops op (by simp)) hb
    simp only [NonRes.run]
    intro o ho
    rcases List.mem_cons.1 ho with rfl | ho
    · exact h1
    · exact ih (fun o ho => hops o (by simp [ho])) _ _ h2 o ho

/-- C49, the part that holds: opening a non-resident value with arbitrary data-run bytes, and any
history of reads and seeks on it over any device, ends without a panic, provided every stored run that
the bytes decode to ends at or below 2^64. Missing: `C49_negation`. -/
theorem C49_no_panic_partial (cs : Nat) (data : Bytes) (p : Pos) (size : Nat) (hsize : size < U64)
    (hruns : ∀ n x a, ((DataRuns.new cs data p).after n).next.1 = some (.ok x) →
      x.position = some a → a + x.allocatedSize ≤ U64) :
    (NonRes.new cs data p size).Safe ∧
    ∀ v, NonRes.new cs data p size = .ok v → ∀ (d : Dev) (ops : List Op), (∀ op ∈ ops, op.InRange) →
      ∀ o ∈ (v.run d ops).1, o.result.Safe := by
  have hfr : NonRes.Bounded
      { clusterSize := cs, data, position := p, runs := DataRuns.new cs data p,
        st := StreamState.new size } :=
    ⟨rfl, rfl, by simp [DataRuns.new], by simp [StreamState.new], hsize, hruns, hruns,
      by intro r p hr; cases hr⟩
  obtain ⟨hn, hcase⟩ := NonRes.nextDataRun_bounded _ hfr
  unfold NonRes.new
  dsimp only
  cases hnx : NonRes.nextDataRun
    { clusterSize := cs, data, position := p, runs := DataRuns.new cs data p,
      st := StreamState.new size } with
  | mk res v' =>
  rw [hnx] at hn hcase
  dsimp only at hn hcase
  rcases hcase with ⟨rfl, _⟩ | rfl | ⟨x, rfl⟩
  · refine ⟨trivial, ?_⟩
    intro v hv d ops hops
    cases hv
    exact NonRes.run_bounded ops hops v' d hn
  · refine ⟨trivial, ?_⟩
    intro v hv d ops hops
    cases hv
    exact NonRes.run_bounded ops hops v' d hn
  · refine ⟨trivial, ?_⟩
    intro v hv
    cases hv

/-- A good run followed by garbage satisfies the hypotheses of `C49_no_panic_partial`. -/
theorem exGarbage_bounded : ∀ n x a, ((DataRuns.new 512 [0x11, 1, 2, 0x99] none).after n).next.1 = some (.ok x) →
    x.position = some a → a + x.allocatedSize ≤ U64 := by
  have h1 : ∀ n, (DataRuns.new 512 [0x11, 1, 2, 0x99] none).next.2.after n =
      (DataRuns.new 512 [0x11, 1, 2, 0x99] none).next.2 := by
    intro n
    induction n with
    | zero => rfl
    | succ n ih =>
      have : (DataRuns.new 512 [0x11, 1, 2, 0x99] none).next.2.next.2 =
          (DataRuns.new 512 [0x11, 1, 2, 0x99] none).next.2 := by decide
      simp only [DataRuns.after]
      rw [this, ih]
  intro n x a hx ha
  cases n with
  | zero =>
    have : (DataRuns.new 512 [0x11, 1, 2, 0x99] none).next.1 = some (.ok ⟨some 1024, 512, 0⟩) := by
      decide
    simp only [DataRuns.after] at hx
    rw [this] at hx
    cases hx
    cases ha
    decide
  | succ n =>
    simp only [DataRuns.after] at hx
    rw [h1 n] at hx
    have : (DataRuns.new 512 [0x11, 1, 2, 0x99] none).next.2.next.1 =
        some (.err (.invalidByteCountInDataRunHeader (none) 9 8)) := by decide
    rw [this] at hx
    cases hx

/-- C49 is violated: clusters of 512 bytes, one run of two clusters whose second cluster would be at
2^64. The run is accepted; a seek to its second cluster succeeds; the read panics (`u64` overflow). -/
theorem C49_negation : ∃ v, NonRes.new 512 [0x71, 2, 0xFF, 0xFF, 0xFF, 0xFF, 0xFF, 0xFF, 0x7F] none 1024 =
      .ok v ∧
    (v.run ⟨[], 0, []⟩ [.seek (.start 512), .read [0]]).1 = [⟨.ok 512, []⟩, ⟨.panic .overflow, [0]⟩] := by
  exact ⟨_, rfl, by decide⟩

example := C49_no_panic_partial 512 [0x11, 1, 2, 0x99] none 600 (by decide) exGarbage_bounded

end NT
