import Verif.Model.Resident
import Verif.Model.Stream
import Verif.Lemmas.Seek
import Verif.Props.C01_NonResident

namespace NT

open Spec

/-- C04 for resident values: the exact integer target, or `InvalidInput` with nothing changed. -/
theorem C04_resident (v : ResVal) (s : SeekFrom) (hs : s.InRange) (hp : v.streamPosition < U64)
    (hl : v.data.length < U64) :
    v.seek s =
      if validTarget (seekTarget v.streamPosition v.data.length s) then
        (.ok (seekTarget v.streamPosition v.data.length s).toNat,
          { v with streamPosition := (seekTarget v.streamPosition v.data.length s).toNat })
      else (.err (.io .invalidInput), v) := by
  simp only [ResVal.seek, ResVal.len, seekContiguous_spec _ _ s hs hp hl]
  split <;> rfl

/-- C04 for a single data run. -/
theorem C04_data_run (r : DataRun) (s : SeekFrom) (hs : s.InRange) (hp : r.streamPosition < U64)
    (hl : r.allocatedSize < U64) :
    r.seek s =
      if validTarget (seekTarget r.streamPosition r.allocatedSize s) then
        (.ok (seekTarget r.streamPosition r.allocatedSize s).toNat,
          { r with streamPosition := (seekTarget r.streamPosition r.allocatedSize s).toNat })
      else (.err (.io .invalidInput), r) := by
  simp only [DataRun.seek, seekContiguous_spec _ _ s hs hp hl]
  split <;> rfl

theorem seekDataRun_streamPosition (s : StreamState) (pos : SeekFrom) (left : Nat) :
    (s.seekDataRun pos left).2.1.streamPosition = s.streamPosition := by
  unfold StreamState.seekDataRun
  split
  · rfl
  · split
    · split
      · split <;> rfl
      · split <;> rfl
      · rfl
    · rfl

theorem nextDataRun_streamPosition (v : NonRes) :
    v.nextDataRun.2.st.streamPosition = v.st.streamPosition := by
  unfold NonRes.nextDataRun
  split <;> rfl

theorem seekLoop_streamPosition (fuel : Nat) (v : NonRes) (pos : SeekFrom) (left : Nat) :
    (NonRes.seekLoop fuel v pos left).2.st.streamPosition = v.st.streamPosition := by
  induction fuel generalizing v left with
  | zero => rfl
  | succ fuel ih =>
    unfold NonRes.seekLoop
    split
    case isFalse => rfl
    have h1 := seekDataRun_streamPosition v.st pos left
    split <;> rename_i heq <;> rw [heq] at h1
    · exact h1
    · rename_i st' left'
      have h2 := nextDataRun_streamPosition { v with st := st' }
      have h3 : v.st.streamPosition = st'.streamPosition := h1.symm
      split <;> rename_i heq2 <;> rw [heq2] at h2 <;> rw [h3]
      · rw [ih]; exact h2
      all_goals exact h2
    all_goals exact h1

/-- C04 for non-resident values, whatever the data runs look like: an invalid target gives
`InvalidInput` and changes nothing; a seek that succeeds had a valid target, returns exactly the
target, and the target is the new position. (That the seek does succeed when the data runs are
well-formed is `C04_non_resident_succeeds`.) -/
theorem C04_non_resident (v : NonRes) (s : SeekFrom) (hs : s.InRange) (hp : v.streamPosition < U64)
    (hl : v.len < U64) :
    (¬ validTarget (seekTarget v.streamPosition v.len s) → v.seek s = (.err (.io .invalidInput), v)) ∧
    ∀ n v', v.seek s = (.ok n, v') →
      validTarget (seekTarget v.streamPosition v.len s) ∧
      seekTarget v.streamPosition v.len s = n ∧ v'.streamPosition = n := by
  have hspec := optimizeSeek_spec v.st s v.st.dataSize hs hp hl
  unfold NonRes.seek
  dsimp only [NonRes.len, NonRes.streamPosition] at *
  obtain ⟨t, ht⟩ : ∃ t, t = seekTarget v.st.streamPosition v.st.dataSize s := ⟨_, rfl⟩
  rw [← ht] at hspec ⊢
  rw [hspec]
  by_cases hv : validTarget t
  case neg =>
    rw [if_neg hv]
    exact ⟨fun _ => rfl, by intro n v' h; cases h⟩
  refine ⟨fun h => absurd hv h, ?_⟩
  rw [if_pos hv]
  have hv' := hv
  simp only [validTarget] at hv'
  by_cases hc : v.st.streamPosition ≤ t.toNat ∧ t.toNat - v.st.streamPosition < I63
  · rw [if_pos hc]
    dsimp only
    rw [if_pos (by omega)]
    have hq := seekLoop_streamPosition (v.data.length + 2) v
      (.current ((t.toNat - v.st.streamPosition : Nat) : Int))
      (((t.toNat - v.st.streamPosition : Nat) : Int)).toNat
    intro n v' h
    split at h <;> rename_i heq <;> rw [heq] at hq
    · dsimp only at hq
      rw [hq] at h
      split at h <;> cases h
      exact ⟨hv, by omega, rfl⟩
    all_goals cases h
  · rw [if_neg hc]
    dsimp only
    intro n v' h
    split at h
    · split at h <;> cases h
      exact ⟨hv, by omega, rfl⟩
    all_goals cases h

/-- C04 for a stored non-resident value after any history of reads and seeks. -/
theorem C04_non_resident_succeeds (cs : Nat) (img data : Bytes) (es : List Extent) (p : Pos)
    (size : Nat) (h : StoredAs cs img data es) (hsize : size < U64) (d : Dev) (hd : d.NoFail)
    (hi : d.img = img) (ops : List Op) (hops : ∀ op ∈ ops, op.InRange) (s : SeekFrom)
    (hs : s.InRange) :
    ∃ v w, NonRes.new cs data p size = .ok v ∧ w = (v.run d ops).2.1 ∧
      if validTarget (seekTarget w.streamPosition w.len s) then
        ∃ w', w.seek s = (.ok (seekTarget w.streamPosition w.len s).toNat, w') ∧
          w'.streamPosition = (seekTarget w.streamPosition w.len s).toNat
      else w.seek s = (.err (.io .invalidInput), w) := by
  obtain ⟨v, h1, h2, h3, h4, _⟩ := NonRes.new_good h p size hsize
  obtain ⟨_, _, i3, _⟩ := NonRes.run_refines img _ h.imgLt ops hops v h2 d hd hi
  refine ⟨v, _, h1, rfl, ?_⟩
  have hsk := NonRes.seek_good img _ _ i3 s hs
  split
  · rename_i hv
    rw [if_pos hv] at hsk
    obtain ⟨w', g1, _, _, _, g5⟩ := hsk
    exact ⟨w', g1, g5⟩
  · rename_i hv
    rwa [if_neg hv] at hsk

example : ∃ v w, NonRes.new 4 [0x11, 1, 2, 0x01, 1, 0x11, 1, 0xFF, 0] none 10 = .ok v ∧
    w = (v.run ⟨[0, 1, 2, 3, 4, 5, 6, 7, 8, 9, 10, 11], 0, [.chunk 1]⟩ [.seek (.end_ 5), .read [1]]).2.1 ∧
    if validTarget (seekTarget w.streamPosition w.len (.current (-7))) then
      ∃ w', w.seek (.current (-7)) = (.ok (seekTarget w.streamPosition w.len (.current (-7))).toNat, w') ∧
        w'.streamPosition = (seekTarget w.streamPosition w.len (.current (-7))).toNat
    else w.seek (.current (-7)) = (.err (.io .invalidInput), w) :=
  C04_non_resident_succeeds 4 _ _ _ none 10 exampleStored (by decide) _
    (by simp [Dev.NoFail]) rfl [.seek (.end_ 5), .read [1]] (by decide) (.current (-7))
    ⟨by decide, by decide⟩
example : (⟨[1, 2, 3], some 4096, 1⟩ : ResVal).seek (.end_ (-(I63 : Int))) =
    (.err (.io .invalidInput), ⟨[1, 2, 3], some 4096, 1⟩) :=
  C04_resident ⟨[1, 2, 3], some 4096, 1⟩ (.end_ (-(I63 : Int))) ⟨by decide, by decide⟩ (by decide) (by decide)
example : (⟨some 4096, 8192, 100⟩ : DataRun).seek (.current (-50)) = (.ok 50, ⟨some 4096, 8192, 50⟩) :=
  C04_data_run ⟨some 4096, 8192, 100⟩ (.current (-50)) ⟨by decide, by decide⟩ (by decide) (by decide)

/-- `C04_non_resident` on a value in its second run. -/
example := C04_non_resident ⟨4, [0x11, 1, 2, 0x11, 1, 0xFF, 0], none, ⟨4, [0x11, 1, 2, 0x11, 1, 0xFF, 0], none, ⟨3, 2⟩⟩,
  ⟨some ⟨some 8, 4, 2⟩, 2, 7⟩⟩ (.end_ (-9)) ⟨by decide, by decide⟩ (by decide) (by decide)

end NT
