import Verif.Props.C01_NonResident
import Verif.Lemmas.StreamAny

namespace NT

open Spec

/-- Reading from a value in a good state over a device that may fail at any call. -/
theorem NonRes.read_any (img : Bytes) (all : List DataRun) (v : NonRes) (hg : v.Good img all)
    (himg : img.length < U64) (buf : Bytes) (d : Dev) (hi : d.img = img) :
    ∃ m v' buf' d', m ≤ buf.length ∧
      buf' = (((restBytes img all).take v.st.dataSize).drop v.st.streamPosition).take m ++ buf.drop m ∧
      m ≤ (((restBytes img all).take v.st.dataSize).drop v.st.streamPosition).length ∧
      ((v.read buf d = (.ok m, v', buf', d') ∧ d'.sched.length ≤ d.sched.length ∧
          m = min buf.length
            (((restBytes img all).take v.st.dataSize).drop v.st.streamPosition).length) ∨
        ∃ e, v.read buf d = (.err (.io e), v', buf', d') ∧ .fail e ∈ d.sched ∧
          d'.sched.length < d.sched.length ∧ m < buf.length ∧
          m < (((restBytes img all).take v.st.dataSize).drop v.st.streamPosition).length) ∧
      v'.Good img all ∧ v'.data = v.data ∧ v'.st.dataSize = v.st.dataSize ∧
      v'.st.streamPosition = v.st.streamPosition + m ∧ d'.img = img ∧
      (∀ x ∈ d'.sched, x ∈ d.sched) := by
  subst hi
  obtain ⟨post, hy, hsub, hlen, hp⟩ := hg.pend
  have hfew := hg.few
  obtain ⟨got, v', post', d', h1, hl1, hl2, h2, h3, h4, h5, h6, h7, h8, h9, h10⟩ :=
    readLoop_any (buf.length + v.data.length + v.runs.data.length + 2) v buf 0 d post himg hy hg.curOk
      (fun r hr => (hg.allOk r (hsub r hr)).1) (by omega) (by omega)
  obtain ⟨W, hW⟩ : ∃ W, W = ((restBytes d.img all).take v.st.dataSize).drop v.st.streamPosition :=
    ⟨_, rfl⟩
  have hWeq : ∀ k, k ≤ v.st.dataSize - v.st.streamPosition →
      W.take k = (restBytes d.img (pending v.st post)).take k := by
    intro k hk
    rw [hW, List.drop_take, List.take_take]
    rcases hp with hp | hp
    · rw [hp.bytes, Nat.min_eq_left hk]
    · have : k = 0 := by omega
      simp [this]
  have hWl : W.length ≤ v.st.dataSize - v.st.streamPosition := by
    rw [hW, List.length_drop, List.length_take]; omega
  rw [← hW]
  have hgot : got = W.take got.length := by rw [hWeq _ hl2]; exact h1
  have hgW : got.length ≤ W.length := by
    rw [hgot, List.length_take]; omega
  have hb : overwrite buf 0 got = W.take got.length ++ buf.drop got.length := by
    rw [← hgot]; simp [overwrite]
  refine ⟨got.length, v', _, d', by omega, rfl, hgW, ?_, ?_, by rw [h5], by rw [h5], by rw [h5], h3,
    h4⟩
  · rw [hb, Nat.zero_add, Nat.sub_zero] at h2
    rcases h2 with ⟨k1, k2, k3⟩ | ⟨e, k1, k2, k3, k4, k5, k6⟩
    · refine .inl ⟨k1, k3, ?_⟩
      have k4 : got = W.take (min buf.length (v.st.dataSize - v.st.streamPosition)) := by
        rw [hWeq _ (by omega)]; exact k2
      have := congrArg List.length k4
      rw [List.length_take] at this
      omega
    · refine .inr ⟨e, k1, k2, k3, k4, ?_⟩
      have hle := congrArg List.length (hWeq (v.st.dataSize - v.st.streamPosition) (Nat.le_refl _))
      rw [List.length_take, List.length_take] at hle
      omega
  · refine ⟨?_, hg.allOk, ?_, ?_, ?_, h7, post', h6, ?_, by omega, ?_⟩
    · rw [h5]; exact hg.fresh
    · rw [h5]; exact hg.few
    · rw [h5]; exact hg.sizeLt
    · rw [h5]
      have := hg.posLt
      have := hg.sizeLt
      dsimp only; omega
    · intro r hr; exact hsub r (h8 r hr)
    · have e1 : v'.st.streamPosition = v.st.streamPosition + got.length := by rw [h5]
      have e2 : v'.st.dataSize = v.st.dataSize := by rw [h5]
      rw [e1, e2]
      rcases h10 with h | h
      · rcases hp with hp | hp
        · left; exact h.trans hp
        · right; omega
      · right; omega

theorem NonRes.run_follows (img : Bytes) (all : List DataRun) (himg : img.length < U64)
    (ops : List Op) (hops : ∀ op ∈ ops, op.InRange) (v : NonRes) (hg : v.Good img all) (d : Dev)
    (hi : d.img = img)
    (E : IoErr → Prop) (hE : ∀ e, .fail e ∈ d.sched → E e) :
    FollowsFile E (v.flat img all) ops (v.run d ops).1 (v.run d ops).2.1.streamPosition := by
  induction ops generalizing v d with
  | nil => exact .nil _
  | cons op ops ih =>
    have hops' : ∀ o ∈ ops, o.InRange := fun o ho => hops o (by simp [ho])
    simp only [NonRes.run]
    cases op with
    | read buf =>
      obtain ⟨m, v', buf', d', h1, h2, h3, h4, h5, h6, h7, h8, h9, h10⟩ :=
        NonRes.read_any img all v hg himg buf d hi
      have key := ih hops' v' h5 d' h9 (fun e he => hE e (h10 _ he))
      have hf : v'.flat img all = { v.flat img all with pos := v.st.streamPosition + m } := by
        unfold NonRes.flat; rw [h7, h8]
      rw [hf] at key
      rcases h4 with ⟨k1, k2, k3⟩ | ⟨e, k1, k2, k3, k4, k5⟩
      · have hs : v.step d (.read buf) = (((v.flat img all).step (.read buf)).1, v', d') := by
          simp only [NonRes.step, k1, Flat.step]
          have hl : ((((restBytes img all).take v.st.dataSize).drop v.st.streamPosition).take
              buf.length).length = m := by rw [List.length_take]; omega
          rw [hl, h2]
          congr 3
          rw [List.take_eq_take_iff, k3, Nat.min_comm buf.length, Nat.min_assoc]; omega
        rw [hs]
        refine .good _ _ _ _ _ ?_
        have hl : ((((restBytes img all).take v.st.dataSize).drop v.st.streamPosition).take
              buf.length).length = m := by rw [List.length_take]; omega
        simp only [Flat.step, hl]
        exact key
      · have hs : v.step d (.read buf) = (⟨.err (.io e), buf'⟩, v', d') := by
          simp only [NonRes.step, k1]
        rw [hs, h2]
        exact .failed _ _ _ _ _ _ _ (hE e k2) k4 k5 key
    | seek s =>
      have h := NonRes.seek_good img all v hg s (hops (.seek s) (by simp))
      have hs : (v.step d (.seek s)).1 = ((v.flat img all).step (.seek s)).1 ∧
          (v.step d (.seek s)).2.1.Good img all ∧ (v.step d (.seek s)).2.2 = d ∧
          (v.step d (.seek s)).2.1.flat img all = ((v.flat img all).step (.seek s)).2 := by
        simp only [NonRes.step, Flat.step]
        by_cases hv : validTarget (seekTarget v.st.streamPosition v.st.dataSize s)
        · rw [if_pos hv] at h
          obtain ⟨v', h1, h2, h3, h4, h5⟩ := h
          rw [if_pos hv, h1]
          dsimp only
          exact ⟨rfl, h2, trivial, by unfold NonRes.flat; rw [h4, h5]⟩
        · rw [if_neg hv] at h
          rw [if_neg hv, h]
          exact ⟨rfl, hg, trivial, rfl⟩
      obtain ⟨s1, s2, s3, s4⟩ := hs
      rw [s1]
      refine .good _ _ _ _ _ ?_
      rw [← s4]
      exact ih hops' _ s2 _ (by rw [s3]; exact hi) (by rw [s3]; exact hE)

/-- C42, the part that holds: for a value with well-formed data runs, no failing device call corrupts
the value. Over a device that fails at arbitrary calls, every history behaves like the in-memory file,
except that some reads fail; such a read has delivered `m` correct bytes and moved the position by
exactly `m`, and a failing seek has changed nothing. Missing: failures that come from malformed data
runs (see `C42_negation`). -/
theorem C42_device_failures_partial (cs : Nat) (img data : Bytes) (es : List Extent) (p : Pos)
    (size : Nat) (h : StoredAs cs img data es) (hsize : size < U64) (d : Dev) (hi : d.img = img)
    (ops : List Op) (hops : ∀ op ∈ ops, op.InRange) :
    ∃ v, NonRes.new cs data p size = .ok v ∧
      FollowsFile (fun e => .fail e ∈ d.sched) { content := (content cs img es).take size, len := size, pos := 0 } ops
        (v.run d ops).1 (v.run d ops).2.1.streamPosition := by
  obtain ⟨v, h1, h2, h3, h4, _⟩ := NonRes.new_good h p size hsize
  have i1 := NonRes.run_follows img _ h.imgLt ops hops v h2 d hi (fun e => .fail e ∈ d.sched) (fun _ h => h)
  have hf : v.flat img (es.map (runOf cs)) =
      { content := (content cs img es).take size, len := size, pos := 0 } := by
    unfold NonRes.flat
    rw [restBytes_runOf, h3, h4]
  rw [hf] at i1
  exact ⟨v, h1, i1⟩

/-- The device fails in the second call of a read; the next read continues at the right place. -/
example : ∃ v, NonRes.new 4 [0x11, 1, 2, 0x01, 1, 0x11, 1, 0xFF, 0] none 10 = .ok v ∧
    (v.run ⟨[0, 1, 2, 3, 4, 5, 6, 7, 8, 9, 10, 11], 0,
        [.chunk 0, .chunk 1, .fail (.other 5)]⟩
      [.read [77, 77, 77, 77], .read [77, 77, 77, 77]]).1 =
      [⟨.err (.io (.other 5)), [8, 9, 77, 77]⟩, ⟨.ok 4, [10, 11, 0, 0]⟩] := by
  exact ⟨_, rfl, by decide⟩

/-- C42 is violated by malformed data runs: here the third run is malformed. A seek to position 100
fails, the position stays 0, but the next read then delivers the bytes of the second run (positions 4
to 7) as if they were at position 0. -/
theorem C42_negation : ∃ v, NonRes.new 4 [0x11, 1, 2, 0x11, 1, 0xFF, 0x99] none 100 = .ok v ∧
    (v.run ⟨[0, 1, 2, 3, 4, 5, 6, 7, 8, 9, 10, 11], 0, []⟩ [.read [77, 77, 77, 77]]).1 =
      [⟨.ok 4, [8, 9, 10, 11]⟩] ∧
    ∃ e, (v.run ⟨[0, 1, 2, 3, 4, 5, 6, 7, 8, 9, 10, 11], 0, []⟩
      [.seek (.start 100), .seek (.current 0), .read [77, 77, 77, 77]]).1 =
      [⟨.err e, []⟩, ⟨.ok 0, []⟩, ⟨.ok 4, [4, 5, 6, 7]⟩] := by
  exact ⟨_, rfl, by decide, .invalidByteCountInDataRunHeader none 9 8, by decide⟩

/-- C43 is violated: the first run lies beyond the end of the device, so its four bytes are missing;
the read delivers the bytes of the second run at position 0 instead of reporting an error. -/
theorem C43_negation : ∃ v, NonRes.new 4 [0x11, 1, 9, 0x11, 1, 0xF8] none 8 = .ok v ∧
    (v.run ⟨[0, 1, 2, 3, 4, 5, 6, 7, 8, 9, 10, 11], 0, []⟩
      [.read [77, 77, 77, 77, 77, 77]]).1 = [⟨.ok 4, [4, 5, 6, 7, 77, 77]⟩] := by
  exact ⟨_, rfl, by decide⟩

/-- `C42_device_failures_partial` on the same value and device. -/
example := C42_device_failures_partial 4 _ _ _ none 10 exampleStored (by decide)
  ⟨[0, 1, 2, 3, 4, 5, 6, 7, 8, 9, 10, 11], 0, [.chunk 0, .chunk 1, .fail (.other 5)]⟩ rfl
  [.read [77, 77, 77, 77], .seek (.end_ (-2)), .read [77, 77, 77, 77]] (by decide)

end NT
