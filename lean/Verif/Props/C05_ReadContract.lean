import Verif.Props.C01_NonResident
import Verif.Props.C02_Resident

namespace NT

open Spec

/-- The possible outcomes of reading from a data run, in any state and over any device. -/
theorem DataRun.read_cases (r : DataRun) (buf : Bytes) (d : Dev) :
    (∃ b d', r.read buf d = (.ok b.length, { r with streamPosition := r.streamPosition + b.length },
        overwrite buf 0 b, d') ∧ b.length ≤ buf.length ∧
        b.length ≤ r.allocatedSize - r.streamPosition) ∨
    (∃ e d', r.read buf d = (.err (.io e), r, buf, d')) ∨
    (r.read buf d = (.panic .overflow, r, buf, d) ∧ r.streamPosition < r.allocatedSize ∧
      ∃ p, r.position = some p ∧ U64 ≤ p + r.streamPosition) := by
  unfold DataRun.read
  by_cases h0 : r.remainingLen = 0
  · rw [if_pos h0]
    exact .inl ⟨[], d, by simp [overwrite_nil], by simp, by simp⟩
  rw [if_neg h0]
  unfold DataRun.remainingLen at *
  dsimp only
  cases hp : r.position with
  | none =>
    dsimp only
    refine .inl ⟨List.replicate (min buf.length (r.allocatedSize - r.streamPosition)) 0, d, ?_, ?_, ?_⟩
    · simp
    · simp; omega
    · simp; omega
  | some p =>
    dsimp only
    by_cases ho : p + r.streamPosition < U64
    · rw [if_pos ho]
      rcases Dev.seekStart_cases (p + r.streamPosition) d with ⟨d1, e1, _⟩ | ⟨e, d1, e1, _⟩
      · rw [e1]
        dsimp only
        rcases Dev.read_cases (min buf.length (r.allocatedSize - r.streamPosition)) d1 with
          ⟨k, d2, e2, hk, _⟩ | ⟨e, d2, e2, _⟩
        · rw [e2]
          exact .inl ⟨_, d2, rfl, by rw [List.length_take]; omega, by rw [List.length_take]; omega⟩
        · rw [e2]; exact .inr (.inl ⟨e, d2, rfl⟩)
      · rw [e1]; exact .inr (.inl ⟨e, d1, rfl⟩)
    · rw [if_neg ho]
      exact .inr (.inr ⟨rfl, by omega, p, rfl, by omega⟩)

/-- The possible outcomes of `read_data_run`, in any state and over any device. -/
theorem readDataRun_cases (s : StreamState) (buf : Bytes) (br : Nat) (d : Dev) (hbr : br ≤ buf.length) :
    (∃ s' b d', s.readDataRun buf br d = (.ok (0 < b.length : Bool), s', overwrite buf br b,
        br + b.length, d') ∧ br + b.length ≤ buf.length ∧
        (b.length = 0 ∨ s.streamPosition + b.length ≤ s.dataSize) ∧
        s' = { s with run := s'.run, streamPosition := s.streamPosition + b.length }) ∨
    (∃ e d', s.readDataRun buf br d = (.err (.io e), s, buf, br, d')) ∨
    (s.readDataRun buf br d = (.panic .overflow, s, buf, br, d) ∧
      ∃ r p, s.run = some r ∧ r.position = some p ∧ r.streamPosition < r.allocatedSize ∧
        U64 ≤ p + r.streamPosition) := by
  have hskip : ∀ s' : StreamState, s'.streamPosition = s.streamPosition → s'.dataSize = s.dataSize →
      ∃ s'' b d', ((.ok false, s', buf, br, d) : Res Bool × StreamState × Bytes × Nat × Dev) =
        (.ok (0 < b.length : Bool), s'', overwrite buf br b, br + b.length, d') ∧
        br + b.length ≤ buf.length ∧ (b.length = 0 ∨ s.streamPosition + b.length ≤ s.dataSize) ∧
        s'' = { s with run := s''.run, streamPosition := s.streamPosition + b.length } := by
    intro s' h1 h2
    refine ⟨s', [], d, by simp [overwrite_nil], by simpa using hbr, by simp, ?_⟩
    cases s'; cases s; simp_all
  unfold StreamState.readDataRun
  cases hr : s.run with
  | none => exact .inl (hskip s rfl rfl)
  | some r =>
    dsimp only
    by_cases h1 : r.streamPosition ≥ r.allocatedSize
    · rw [if_pos h1]; exact .inl (hskip s rfl rfl)
    rw [if_neg h1]
    by_cases h2 : s.dataSize - s.streamPosition = 0
    · rw [if_pos h2]; exact .inl (hskip s rfl rfl)
    rw [if_neg h2]
    have hk : br + min (buf.length - br) (s.dataSize - s.streamPosition) - br =
        min (buf.length - br) (s.dataSize - s.streamPosition) := by omega
    rw [hk]
    have hself : overwrite buf br ((buf.drop br).take
        (min (buf.length - br) (s.dataSize - s.streamPosition))) = buf := by
      have : overwrite ((buf.drop br).take
          (min (buf.length - br) (s.dataSize - s.streamPosition))) 0 [] =
          (buf.drop br).take (min (buf.length - br) (s.dataSize - s.streamPosition)) :=
        overwrite_nil _ _
      rw [← this, overwrite_slice _ _ _ _ (by simp) (by omega), overwrite_nil]
    rcases DataRun.read_cases r ((buf.drop br).take
        (min (buf.length - br) (s.dataSize - s.streamPosition))) d with
      ⟨b, d', e, hb1, hb2⟩ | ⟨e, d', he⟩ | ⟨e, hlt, p, hp, ho⟩
    · rw [e]
      dsimp only
      rw [List.length_take, List.length_drop] at hb1
      rw [overwrite_slice _ _ _ _ (by omega) (by omega)]
      left
      by_cases hn : b.length = 0
      · rw [if_pos hn]
        exact ⟨{ s with run := some { r with streamPosition := r.streamPosition + b.length } }, b, d',
          by simp [hn], by omega, .inl hn, by simp [hn]⟩
      · rw [if_neg hn]
        refine ⟨{ s with
          run := some { r with streamPosition := r.streamPosition + b.length }
          streamPosition := s.streamPosition + b.length }, b, d', ?_, by omega, .inr (by omega), rfl⟩
        have : 0 < b.length := by omega
        simp [this]
    · rw [he]
      dsimp only
      rw [hself, ← hr]
      exact .inr (.inl ⟨e, d', rfl⟩)
    · rw [e]
      dsimp only
      rw [hself, ← hr]
      exact .inr (.inr ⟨rfl, r, p, hr, hp, hlt, ho⟩)

theorem nextDataRun_st (v : NonRes) :
    v.nextDataRun.2 = { v with
      runs := v.nextDataRun.2.runs
      st := { v.st with run := v.nextDataRun.2.st.run } } := by
  unfold NonRes.nextDataRun
  split <;> rfl

theorem overwrite_drop_after (buf b : Bytes) (i : Nat) (h : i + b.length ≤ buf.length) (k : Nat)
    (hk : i + b.length ≤ k) : (overwrite buf i b).drop k = buf.drop k := by
  apply List.ext_getElem?
  intro j
  rw [List.getElem?_drop, List.getElem?_drop, overwrite_getElem? (by omega)]
  rw [if_neg (by omega), if_neg (by omega)]

theorem readLoop_contract (fuel : Nat) (v : NonRes) (buf : Bytes) (br : Nat) (d : Dev)
    (hbr : br ≤ buf.length) :
    ∃ b, br + b.length ≤ buf.length ∧
      (NonRes.readLoop fuel v buf br d).2.2.1 = overwrite buf br b ∧
      (NonRes.readLoop fuel v buf br d).2.1.st.streamPosition = v.st.streamPosition + b.length ∧
      (NonRes.readLoop fuel v buf br d).2.1.st.dataSize = v.st.dataSize ∧
      (NonRes.readLoop fuel v buf br d).2.1.data = v.data ∧
      (b.length = 0 ∨ v.st.streamPosition + b.length ≤ v.st.dataSize) ∧
      (∀ n, (NonRes.readLoop fuel v buf br d).1 = .ok n → n = br + b.length) := by
  induction fuel generalizing v buf br d with
  | zero => exact ⟨[], by simpa using hbr, by simp [NonRes.readLoop, overwrite_nil],
      rfl, rfl, rfl, .inl rfl, by intro n hn; simp [NonRes.readLoop] at hn⟩
  | succ fuel ih =>
    unfold NonRes.readLoop
    by_cases hlt : br < buf.length
    case neg =>
      rw [if_neg hlt]
      exact ⟨[], by simpa using hbr, by simp [overwrite_nil], rfl, rfl, rfl, .inl rfl, by
        intro n hn; cases hn; rfl⟩
    rw [if_pos hlt]
    have hnil : ∀ v' : NonRes, v'.st.streamPosition = v.st.streamPosition → v'.data = v.data →
        v'.st.dataSize = v.st.dataSize → ∀ (r : Res Nat) (d' : Dev), (∀ n, r = .ok n → n = br) →
        ∃ b : Bytes, br + b.length ≤ buf.length ∧
          ((r, v', buf, d') : Res Nat × NonRes × Bytes × Dev).2.2.1 = overwrite buf br b ∧
          v'.st.streamPosition = v.st.streamPosition + b.length ∧
          v'.st.dataSize = v.st.dataSize ∧ v'.data = v.data ∧
          (b.length = 0 ∨ v.st.streamPosition + b.length ≤ v.st.dataSize) ∧
          (∀ n, r = .ok n → n = br + b.length) := by
      intro v' h1 h2 h3 r d' h4
      exact ⟨[], by simpa using hbr, by simp [overwrite_nil], by simpa using h1, h3, h2, .inl rfl,
        by simpa using h4⟩
    rcases readDataRun_cases v.st buf br d hbr with ⟨s', b, d', e, h1, h2, h3⟩ | ⟨e, d', he⟩ | ⟨e, _⟩
    · rw [e]
      by_cases hb : 0 < b.length
      · rw [show (decide (0 < b.length)) = true from by simpa using hb]
        dsimp only
        have hol : (overwrite buf br b).length = buf.length := overwrite_length h1
        obtain ⟨b', g1, g2, g3, g4, g5, g6, g7⟩ := ih { v with st := s' } (overwrite buf br b)
          (br + b.length) d' (by rw [hol]; exact h1)
        have e1 : s'.streamPosition = v.st.streamPosition + b.length := by rw [h3]
        have e2 : s'.dataSize = v.st.dataSize := by rw [h3]
        dsimp only at g3 g4 g5 g6
        rw [e1] at g3 g6
        rw [e2] at g4 g6
        refine ⟨b ++ b', ?_, ?_, ?_, g4, g5, ?_, ?_⟩
        · rw [List.length_append]; omega
        · rw [g2, overwrite_append _ _ _ _ h1]
        · rw [g3, List.length_append]; omega
        · rw [List.length_append]; omega
        · intro n hn; rw [g7 n hn, List.length_append]; omega
      · rw [show (decide (0 < b.length)) = false from by simpa using hb]
        have hb0 : b = [] := List.eq_nil_of_length_eq_zero (by omega)
        subst hb0
        rw [overwrite_nil]
        dsimp only
        have hst := nextDataRun_st { v with st := s' }
        have e1 : s'.streamPosition = v.st.streamPosition := by rw [h3]; rfl
        have e2 : s'.dataSize = v.st.dataSize := by rw [h3]
        cases hnx : NonRes.nextDataRun { v with st := s' } with
        | mk res v' =>
        rw [hnx] at hst
        dsimp only at hst
        have f1 : v'.st.streamPosition = v.st.streamPosition := by rw [hst]; exact e1
        have f2 : v'.st.dataSize = v.st.dataSize := by rw [hst]; exact e2
        have f3 : v'.data = v.data := by rw [hst]
        cases res with
        | ok t =>
          cases t with
          | true =>
            dsimp only
            have := ih v' buf br d' hbr
            rw [f1, f2, f3] at this
            exact this
          | false => exact hnil v' f1 f3 f2 _ d' (by intro n hn; cases hn; simp)
        | err x => exact hnil v' f1 f3 f2 _ d' (by intro n hn; cases hn)
        | panic x => exact hnil v' f1 f3 f2 _ d' (by intro n hn; cases hn)
        | diverge => exact hnil v' f1 f3 f2 _ d' (by intro n hn; cases hn)
    · rw [he]
      exact hnil v rfl rfl rfl _ d' (by intro n hn; cases hn)
    · rw [e]
      exact hnil v rfl rfl rfl _ d (by intro n hn; cases hn)

/-- C05 for non-resident values, in every state (reachable or not, well-formed data runs or not) and
over every device: a successful `read` returns `n ≤ buf.len()`, changes only the first `n` bytes of the
buffer, and moves the position by exactly `n`, never past the data size. -/
theorem C05_non_resident (v v' : NonRes) (buf buf' : Bytes) (d d' : Dev) (n : Nat)
    (h : v.read buf d = (.ok n, v', buf', d')) :
    n ≤ buf.length ∧ buf'.length = buf.length ∧ buf'.drop n = buf.drop n ∧
      v'.streamPosition = v.streamPosition + n ∧ v'.len = v.len ∧
      (n = 0 ∨ v'.streamPosition ≤ v.len) := by
  obtain ⟨b, h1, h2, h3, h4, h5, h6, h7⟩ :=
    readLoop_contract (buf.length + v.data.length + v.runs.data.length + 2) v buf 0 d (by omega)
  unfold NonRes.read at h
  rw [h] at h2 h3 h4 h5 h7
  have hn : n = b.length := by simpa using h7 n rfl
  subst hn
  dsimp only at h2 h3 h4
  refine ⟨by omega, ?_, ?_, h3, h4, ?_⟩
  · rw [h2]; exact overwrite_length (by omega)
  · rw [h2]; exact overwrite_drop_after _ _ _ (by omega) _ (by omega)
  · unfold NonRes.streamPosition NonRes.len; omega

/-- C05 for a failing read: at most the bytes the position moved by have been changed. -/
theorem C05_non_resident_failed (v v' : NonRes) (buf buf' : Bytes) (d d' : Dev) (r : Res Nat)
    (h : v.read buf d = (r, v', buf', d')) :
    ∃ m, m ≤ buf.length ∧ buf'.length = buf.length ∧ buf'.drop m = buf.drop m ∧
      v'.streamPosition = v.streamPosition + m ∧ (m = 0 ∨ v'.streamPosition ≤ v.len) := by
  obtain ⟨b, h1, h2, h3, h4, h5, h6, h7⟩ :=
    readLoop_contract (buf.length + v.data.length + v.runs.data.length + 2) v buf 0 d (by omega)
  unfold NonRes.read at h
  rw [h] at h2 h3 h4 h5 h7
  dsimp only at h2 h3 h4
  refine ⟨b.length, by omega, ?_, ?_, h3, ?_⟩
  · rw [h2]; exact overwrite_length (by omega)
  · rw [h2]; exact overwrite_drop_after _ _ _ (by omega) _ (by omega)
  · unfold NonRes.streamPosition NonRes.len; omega

/-- C05 for resident values, in every state. -/
theorem C05_resident (v v' : ResVal) (buf buf' : Bytes) (n : Nat)
    (h : v.read buf = (.ok n, v', buf')) :
    n ≤ buf.length ∧ buf'.length = buf.length ∧ buf'.drop n = buf.drop n ∧
      v'.streamPosition = v.streamPosition + n ∧ v'.len = v.len ∧
      (n = 0 ∨ v'.streamPosition ≤ v.len) := by
  rw [ResVal.read_eq] at h
  obtain ⟨got, hgot⟩ : ∃ got, got = (v.data.drop v.streamPosition).take buf.length := ⟨_, rfl⟩
  rw [← hgot] at h
  have hl : got.length = min buf.length (v.data.length - v.streamPosition) := by
    rw [hgot, List.length_take, List.length_drop]
  simp only [Prod.mk.injEq, Res.ok.injEq] at h
  obtain ⟨rfl, rfl, rfl⟩ := h
  refine ⟨by omega, by simp; omega, by simp, rfl, rfl, ?_⟩
  unfold ResVal.len
  dsimp only
  omega

/-- A read that crosses from a stored run into a sparse one over a device delivering one byte per
call; the fourth buffer byte is beyond the data size and stays as it was. -/
example : ∃ v v' d', NonRes.new 4 [0x11, 1, 2, 0x01, 1] none 7 = .ok v ∧
    ∃ v1, v.seek (.start 3) = (.ok 3, v1) ∧
    v1.read [77, 77, 77, 77, 77] ⟨[0, 1, 2, 3, 4, 5, 6, 7, 8, 9, 10, 11], 0, [.chunk 0, .chunk 0]⟩ =
      (.ok 4, v', [11, 0, 0, 0, 77], d') := by
  exact ⟨_, _, _, rfl, _, rfl, rfl⟩

/-- A value of two runs that is not contiguous on the device. -/
def exReadVal : NonRes :=
  ⟨4, [0x11, 1, 2, 0x11, 1, 0xFF], none, ⟨4, [0x11, 1, 2, 0x11, 1, 0xFF], none, ⟨3, 2⟩⟩, ⟨some ⟨some 8, 4, 0⟩, 0, 8⟩⟩

/-- The three theorems of this file applied to concrete reads: a read of five bytes over both runs, a read that the device
fails, and a read from a resident value. -/
example := C05_non_resident exReadVal _ [77, 77, 77, 77, 77] _ ⟨[0, 1, 2, 3, 4, 5, 6, 7, 8, 9, 10, 11], 0, []⟩ _ 5
  (Prod.ext (by decide +kernel) rfl)
example := C05_non_resident_failed exReadVal _ [77, 77, 77, 77, 77] _
  ⟨[0, 1, 2, 3, 4, 5, 6, 7, 8, 9, 10, 11], 0, [.chunk 9, .fail (.other 5)]⟩ _ (.err (.io (.other 5)))
  (Prod.ext (by decide +kernel) rfl)
example := C05_resident ⟨[1, 2, 3], none, 1⟩ _ [9, 9, 9, 9] _ 2 rfl

end NT
