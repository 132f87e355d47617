import Verif.Lemmas.Stream

/-! The read loop on a device that may fail at any call. -/

namespace NT

open Spec

theorem DataRun.read_any (r : DataRun) (buf : Bytes) (d : Dev)
    (hok : RunOk d.img r) (himg : d.img.length < U64) (hlt : r.streamPosition < r.allocatedSize)
    (hbuf : 0 < buf.length) :
    (∃ n d', r.read buf d = (.ok n, { r with streamPosition := r.streamPosition + n },
        overwrite buf 0 ((runBytes d.img r).take n), d') ∧
      0 < n ∧ n ≤ buf.length ∧ n ≤ r.allocatedSize - r.streamPosition ∧
      d'.img = d.img ∧ d'.sched.length ≤ d.sched.length ∧ (∀ x ∈ d'.sched, x ∈ d.sched)) ∨
    (∃ e d', r.read buf d = (.err (.io e), r, buf, d') ∧ d'.img = d.img ∧
      d'.sched.length < d.sched.length ∧ .fail e ∈ d.sched ∧ (∀ x ∈ d'.sched, x ∈ d.sched)) := by
  unfold DataRun.read
  rw [if_neg (by unfold DataRun.remainingLen; omega)]
  dsimp only [DataRun.remainingLen]
  cases hp : r.position with
  | none =>
    refine .inl ⟨min buf.length (r.allocatedSize - r.streamPosition), d, ?_, by omega, by omega,
      by omega, rfl, Nat.le_refl _, fun _ h => h⟩
    have : (runBytes d.img r).take (min buf.length (r.allocatedSize - r.streamPosition)) =
        List.replicate (min buf.length (r.allocatedSize - r.streamPosition)) 0 := by
      unfold runBytes; rw [hp]; simp [List.take_replicate]
    rw [this]
  | some p =>
    have hin := hok.inside p hp
    dsimp only
    rw [if_pos (by omega)]
    rcases Dev.seekStart_cases (p + r.streamPosition) d with ⟨d1, e1, i1, p1, s1⟩ | ⟨e, d1, e1, i1, p1, s1⟩
    · rw [e1]
      dsimp only
      have hs1 : d1.sched.length ≤ d.sched.length := by rw [s1, List.length_tail]; omega
      have hmem : ∀ x, x ∈ d1.sched → x ∈ d.sched := by
        intro x hx; rw [s1] at hx; exact List.mem_of_mem_tail hx
      rcases Dev.read_cases (min buf.length (r.allocatedSize - r.streamPosition)) d1 with
        ⟨k, d2, e2, hk, hk0, i2, p2, s2⟩ | ⟨e, d2, e2, i2, p2, s2⟩
      · left
        rw [e2]
        dsimp only
        rw [i1, p1]
        have hlen : ((d.img.drop (p + r.streamPosition)).take k).length = k := by
          simp; omega
        have hkp := hk0 (by omega)
        refine ⟨k, d2, ?_, hkp, by omega, by omega, by rw [i2, i1],
          by rw [s2, List.length_tail]; omega,
          fun x hx => hmem x (by rw [s2] at hx; exact List.mem_of_mem_tail hx)⟩
        have : (runBytes d.img r).take k = (d.img.drop (p + r.streamPosition)).take k := by
          unfold runBytes; rw [hp]
          dsimp only
          rw [List.take_take]
          congr 1; omega
        rw [this, hlen]
      · right
        rw [e2]
        refine ⟨e, d2, rfl, by rw [i2, i1], ?_, hmem _ (by rw [s2]; simp),
          fun x hx => hmem x (by rw [s2]; simp [hx])⟩
        have : d1.sched.length = d2.sched.length + 1 := by rw [s2]; simp
        omega
    · right
      rw [e1]
      refine ⟨e, d1, rfl, i1, by rw [s1]; simp, by rw [s1]; simp,
        fun x hx => by rw [s1]; simp [hx]⟩

theorem readDataRun_any (s : StreamState) (buf : Bytes) (br : Nat) (d : Dev) (r : DataRun)
    (himg : d.img.length < U64) (hr : s.run = some r) (hok : RunOk d.img r)
    (hlt : r.streamPosition < r.allocatedSize) (hsize : s.streamPosition < s.dataSize)
    (hbr : br < buf.length) :
    (∃ n d', s.readDataRun buf br d =
        (.ok true,
          { s with
            run := some { r with streamPosition := r.streamPosition + n }
            streamPosition := s.streamPosition + n },
          overwrite buf br ((runBytes d.img r).take n), br + n, d') ∧
      0 < n ∧ br + n ≤ buf.length ∧ n ≤ r.allocatedSize - r.streamPosition ∧
      s.streamPosition + n ≤ s.dataSize ∧ d'.img = d.img ∧ d'.sched.length ≤ d.sched.length ∧
      (∀ x ∈ d'.sched, x ∈ d.sched)) ∨
    (∃ e d', s.readDataRun buf br d = (.err (.io e), s, buf, br, d') ∧ d'.img = d.img ∧
      d'.sched.length < d.sched.length ∧ .fail e ∈ d.sched ∧ (∀ x ∈ d'.sched, x ∈ d.sched)) := by
  unfold StreamState.readDataRun
  rw [hr]
  dsimp only
  rw [if_neg (by omega), if_neg (by omega)]
  have hk : br + min (buf.length - br) (s.dataSize - s.streamPosition) - br =
      min (buf.length - br) (s.dataSize - s.streamPosition) := by omega
  rw [hk]
  have hl : ((buf.drop br).take (min (buf.length - br) (s.dataSize - s.streamPosition))).length =
      min (buf.length - br) (s.dataSize - s.streamPosition) := by
    rw [List.length_take, List.length_drop]; omega
  rcases DataRun.read_any r
    ((buf.drop br).take (min (buf.length - br) (s.dataSize - s.streamPosition))) d hok himg hlt
    (by omega) with ⟨n, d', e, h1, h2, h3, h4, h5, h6⟩ | ⟨e, d', he, h1, h2, h3, h4⟩
  · left
    rw [e]
    dsimp only
    rw [if_neg (by omega)]
    refine ⟨n, d', ?_, h1, by omega, h3, by omega, h4, h5, h6⟩
    rw [overwrite_slice _ _ _ _ (by rw [List.length_take]; omega) (by omega)]
  · right
    rw [he]
    dsimp only
    refine ⟨e, d', ?_, h1, h2, h3, h4⟩
    rw [← hr]
    congr 3
    have : overwrite ((buf.drop br).take (min (buf.length - br) (s.dataSize - s.streamPosition))) 0 []
      = (buf.drop br).take (min (buf.length - br) (s.dataSize - s.streamPosition)) := overwrite_nil _ _
    rw [← this, overwrite_slice _ _ _ _ (by simp) (by omega), overwrite_nil]

/-- The loop of `read` on a device that may fail: either it delivers exactly the next bytes, or it
fails with an error of the device after having delivered some of the next bytes, and then the
position has moved by exactly the number of delivered bytes. -/
theorem readLoop_any (fuel : Nat) (v : NonRes) (buf : Bytes) (br : Nat) (d : Dev)
    (post : List DataRun) (himg : d.img.length < U64)
    (hy : Yields v.runs post) (hcur : ∀ r, v.st.run = some r → RunOk d.img r)
    (hpost : ∀ r ∈ post, RunOk d.img r) (hbr : br ≤ buf.length)
    (hfuel : buf.length - br + post.length < fuel) :
    ∃ got v' post' d',
      got = (restBytes d.img (pending v.st post)).take got.length ∧
      got.length ≤ buf.length - br ∧ got.length ≤ v.st.dataSize - v.st.streamPosition ∧
      ((NonRes.readLoop fuel v buf br d = (.ok (br + got.length), v', overwrite buf br got, d') ∧
        got = (restBytes d.img (pending v.st post)).take
          (min (buf.length - br) (v.st.dataSize - v.st.streamPosition)) ∧
        d'.sched.length ≤ d.sched.length) ∨
       (∃ e, NonRes.readLoop fuel v buf br d = (.err (.io e), v', overwrite buf br got, d') ∧
        .fail e ∈ d.sched ∧ d'.sched.length < d.sched.length ∧ got.length < buf.length - br ∧
        got.length < (restBytes d.img (pending v.st post)).length ∧
        got.length < v.st.dataSize - v.st.streamPosition)) ∧
      d'.img = d.img ∧ (∀ x ∈ d'.sched, x ∈ d.sched) ∧
      v' = { v with runs := v'.runs, st := { v.st with run := v'.st.run, streamPosition := v.st.streamPosition + got.length } } ∧
      Yields v'.runs post' ∧ (∀ r, v'.st.run = some r → RunOk d.img r) ∧
      (∀ r ∈ post', r ∈ post) ∧ post'.length ≤ post.length ∧
      (Shift d.img (pending v'.st post') (pending v.st post) got.length ∨
        v.st.dataSize ≤ v.st.streamPosition + got.length) := by
  induction fuel generalizing v buf br d post with
  | zero => omega
  | succ fuel ih =>
    unfold NonRes.readLoop
    by_cases hlt : br < buf.length
    case neg =>
      rw [if_neg hlt]
      have : min (buf.length - br) (v.st.dataSize - v.st.streamPosition) = 0 := by omega
      refine ⟨[], v, post, d, by simp, by simp, by simp, .inl ⟨?_, by rw [this, List.take_zero],
        Nat.le_refl _⟩, rfl, fun _ h => h, rfl, hy, hcur, fun _ h => h, Nat.le_refl _, .inl (Shift.refl _ _)⟩
      rw [overwrite_nil]; rfl
    rw [if_pos hlt]
    by_cases hskip : ∀ r, v.st.run = some r →
        r.allocatedSize ≤ r.streamPosition ∨ v.st.dataSize ≤ v.st.streamPosition
    · rw [readDataRun_skip _ _ _ _ hskip]
      dsimp only
      have hpend : ∀ k, k ≤ v.st.dataSize - v.st.streamPosition →
          (restBytes d.img (pending v.st post)).take k = (restBytes d.img post).take k := by
        intro k hk
        cases hr : v.st.run with
        | none => simp [pending, hr]
        | some r =>
          rcases hskip r hr with h | h
          · simp [pending, hr, restBytes_cons, runBytes_end _ _ h]
          · have : k = 0 := by omega
            rw [this, List.take_zero, List.take_zero]
      cases post with
      | nil =>
        obtain ⟨runs', e, hy'⟩ := nextDataRun_done' v hy
        rw [e]
        dsimp only
        refine ⟨[], { v with runs := runs' }, [], d, by simp, by simp, by simp,
          .inl ⟨?_, ?_, Nat.le_refl _⟩, rfl, fun _ h => h, rfl, hy', hcur, fun _ h => h,
          Nat.le_refl _, .inl (Shift.refl _ _)⟩
        · rw [overwrite_nil]; rfl
        · rw [hpend _ (by omega)]; simp
      | cons x xs =>
        obtain ⟨runs', e, hy'⟩ := nextDataRun_step v x xs hy
        rw [e]
        dsimp only
        obtain ⟨got, v', post', d', h1, hl1, hl2, h2, h3, h4, h5, h6, h7, h8, h9, h10⟩ :=
          ih { v with runs := runs', st := { v.st with run := some x } } buf br d xs himg hy'
            (by intro r hr; injection hr with hr; subst hr; exact hpost _ (by simp))
            (fun r hr => hpost r (by simp [hr])) hbr (by simp at hfuel; omega)
        have hp : restBytes d.img (pending { v.st with run := some x } xs) =
            restBytes d.img (x :: xs) := by simp [pending]
        dsimp only at h1 h2 h5 h10 hl1 hl2
        rw [hp] at h1 h2
        refine ⟨got, v', post', d', ?_, hl1, hl2, ?_, h3, h4, h5, h6, h7, ?_, ?_, ?_⟩
        · rw [hpend _ hl2]; exact h1
        · rw [hpend _ (by omega)]
          rcases h2 with h2 | ⟨e', k1, k2, k3, k4, k5, k6⟩
          · exact .inl h2
          · refine .inr ⟨e', k1, k2, k3, k4, ?_, k6⟩
            have hle := hpend (v.st.dataSize - v.st.streamPosition) (Nat.le_refl _)
            have hle := congrArg List.length hle
            rw [List.length_take, List.length_take] at hle
            omega
        · intro r hr; simp [h8 r hr]
        · simp; omega
        · rcases h10 with h | h
          · cases hr : v.st.run with
            | none => left; simpa [pending, hr] using h
            | some r =>
              rcases hskip r hr with hh | hh
              · left
                have := h.trans (Shift.skipDone (img := d.img) (x :: xs) hh)
                simpa [pending, hr] using this
              · right; omega
          · exact .inr h
    · have hr : ∃ r, v.st.run = some r ∧ r.streamPosition < r.allocatedSize ∧
          v.st.streamPosition < v.st.dataSize := by
        cases hr : v.st.run with
        | none => exact absurd (fun r h => by rw [hr] at h; cases h) hskip
        | some r =>
          refine ⟨r, rfl, ?_⟩
          by_cases hh : r.allocatedSize ≤ r.streamPosition ∨ v.st.dataSize ≤ v.st.streamPosition
          · exact absurd (fun r' h => by rw [hr] at h; injection h with h; subst h; exact hh) hskip
          · omega
      obtain ⟨r, hr, hlt2, hsz⟩ := hr
      have hok := hcur r hr
      rcases readDataRun_any v.st buf br d r himg hr hok hlt2 hsz hlt with
        ⟨n, d1, e, h1, h2, h3, h4, h5, h6, h6'⟩ | ⟨e, d1, he, h1, h2, h3, h4⟩
      case inr =>
        rw [he]
        dsimp only
        refine ⟨[], v, post, d1, by simp, by simp, by simp, .inr ⟨e, by rw [overwrite_nil], h3, h2,
          by simp; omega, ?_, by simp; omega⟩,
          h1, h4, rfl, hy, hcur, fun _ h => h, Nat.le_refl _, .inl (Shift.refl _ _)⟩
        simp only [pending, hr, Option.toList, List.cons_append, restBytes_cons, List.length_append,
          runBytes_length hok, List.length_nil]
        omega
      rw [e]
      dsimp only
      have hbl : ((runBytes d.img r).take n).length = n := by
        rw [List.length_take, runBytes_length hok]; omega
      have hol : (overwrite buf br ((runBytes d.img r).take n)).length = buf.length :=
        overwrite_length (by omega)
      obtain ⟨got, v', post', d', g1, gl1, gl2, g2, g3, g4, g5, g6, g7, g8, g9, g10⟩ :=
        ih { v with st := { v.st with
              run := some { r with streamPosition := r.streamPosition + n }
              streamPosition := v.st.streamPosition + n } }
          (overwrite buf br ((runBytes d.img r).take n)) (br + n) d1 post (by rw [h5]; exact himg) hy
          (by
            intro r' hr'; injection hr' with hr'; subst hr'
            rw [h5]
            exact ⟨by have := hok.le; dsimp only; omega, hok.lt, hok.inside, hok.placed⟩)
          (by rw [h5]; exact hpost) (by rw [hol]; exact h2) (by rw [hol]; omega)
      dsimp only at g1 g2 g5 g10 gl1 gl2
      rw [h5] at g1 g2 g3 g7 g10
      have hp : restBytes d.img (pending v.st post) = runBytes d.img r ++ restBytes d.img post := by
        simp [pending, hr, restBytes_cons]
      have hp' : restBytes d.img (pending { v.st with
              run := some { r with streamPosition := r.streamPosition + n }
              streamPosition := v.st.streamPosition + n } post) =
          (restBytes d.img (pending v.st post)).drop n := by
        rw [hp, List.drop_append_of_le_length (by rw [runBytes_length hok]; omega)]
        simp [pending, restBytes_cons, runBytes_advance]
      rw [hp'] at g1
      rw [hp', hol] at g2
      rw [hol] at gl1
      have ht : (runBytes d.img r).take n = (restBytes d.img (pending v.st post)).take n := by
        rw [hp, List.take_append_of_le_length (by rw [runBytes_length hok]; omega)]
      have hov : overwrite (overwrite buf br ((runBytes d.img r).take n)) (br + n) got =
          overwrite buf br ((runBytes d.img r).take n ++ got) := by
        have := overwrite_append buf ((runBytes d.img r).take n) got br (by omega)
        rwa [hbl] at this
      rw [hov] at g2
      have hl : ((runBytes d.img r).take n ++ got).length = n + got.length := by
        rw [List.length_append, hbl]
      refine ⟨(runBytes d.img r).take n ++ got, v', post', d', ?_, by omega, by omega, ?_, g3,
        fun x hx => h6' x (g4 x hx), ?_, g6, g7, g8, g9, ?_⟩
      · rw [hl, ht]
        conv => lhs; rw [g1]
        rw [← List.take_add]
      · rw [hl]
        rcases g2 with ⟨k1, k2, k3⟩ | ⟨e', k1, k2, k3, k4, k5, k6⟩
        · left
          refine ⟨by rw [k1]; congr 2; omega, ?_, by omega⟩
          rw [ht]
          conv => lhs; rw [k2]
          rw [← List.take_add]
          congr 1; omega
        · rw [List.length_drop] at k5
          exact .inr ⟨e', k1, h6' _ k2, by omega, by omega, by omega, by omega⟩
      · rw [g5, hl]
        simp only [Nat.add_assoc]
      · rw [hl]
        rcases g10 with h | h
        · left
          have := h.trans (Shift.advance (img := d.img) post n hok h3)
          simpa [pending, hr] using this
        · right; omega

end NT
