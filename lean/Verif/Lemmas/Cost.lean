import Verif.Lemmas.Stream
import Verif.Model.ReadExact

/-! How often the operations call the device, when the device answers every call in full. -/

namespace NT

/-- Every call that the schedule describes is answered in full: no failure, no short read. -/
def Dev.Full (d : Dev) : Prop := ∀ r ∈ d.sched, ∃ k, r = .chunk k ∧ d.img.length ≤ k + 1

/-- `d'` is `d` after `k` calls: each call uses up one entry of the schedule. -/
structure Dev.Used (k : Nat) (d d' : Dev) : Prop where
  img : d'.img = d.img
  sched : d'.sched = d.sched.drop k

theorem Dev.Used.refl (d : Dev) : Dev.Used 0 d d := ⟨rfl, rfl⟩

theorem Dev.Used.trans {a b : Nat} {d d' d'' : Dev} (h : Dev.Used a d d') (h' : Dev.Used b d' d'') :
    Dev.Used (a + b) d d'' :=
  ⟨by rw [h'.img, h.img], by rw [h'.sched, h.sched, List.drop_drop]⟩

theorem Dev.Used.full {k : Nat} {d d' : Dev} (h : Dev.Used k d d') (hd : d.Full) : d'.Full := by
  intro r hr
  rw [h.sched] at hr
  rw [h.img]
  exact hd r (List.mem_of_mem_drop hr)

theorem Dev.Full.noFail {d : Dev} (h : d.Full) : d.NoFail := by
  intro r hr e he
  obtain ⟨k, hk, _⟩ := h r hr
  rw [he] at hk
  cases hk

theorem Dev.seekStart_used (p : Nat) (d : Dev) (hd : d.Full) :
    ∃ d', Dev.seekStart p d = (.ok (), d') ∧ d'.pos = p ∧ Dev.Used 1 d d' := by
  unfold Dev.seekStart
  split
  · rename_i e s hs
    exact absurd rfl (hd.noFail _ (by rw [hs]; exact List.mem_cons_self) e)
  · rename_i k s hs
    exact ⟨_, rfl, rfl, rfl, by rw [hs]; rfl⟩
  · rename_i hs
    exact ⟨_, rfl, rfl, rfl, by rw [hs]; rfl⟩

theorem Dev.read_used (n : Nat) (d : Dev) (hd : d.Full) :
    ∃ d', Dev.read n d = (.ok ((d.img.drop d.pos).take n), d') ∧
      d'.pos = d.pos + ((d.img.drop d.pos).take n).length ∧ Dev.Used 1 d d' := by
  unfold Dev.read
  split
  · rename_i e s hs
    exact absurd rfl (hd.noFail _ (by rw [hs]; exact List.mem_cons_self) e)
  · rename_i k s hs
    obtain ⟨k', hk, hl⟩ := hd (.chunk k) (by rw [hs]; exact List.mem_cons_self)
    cases hk
    have : (d.img.drop d.pos).take (min n (k + 1)) = (d.img.drop d.pos).take n := by
      by_cases hn : n ≤ k + 1
      · rw [Nat.min_eq_left hn]
      · rw [Nat.min_eq_right (by omega), List.take_of_length_le (by rw [List.length_drop]; omega),
          List.take_of_length_le (by rw [List.length_drop]; omega)]
    rw [this]
    exact ⟨_, rfl, rfl, rfl, by rw [hs]; rfl⟩
  · rename_i hs
    exact ⟨_, rfl, rfl, rfl, by rw [hs]; rfl⟩

/-- The number of calls of `read` that `read_exact` for `n` bytes makes when `a` bytes are left in the
image. -/
def exactCalls (n a : Nat) : Nat := if n = 0 then 0 else if n ≤ a then 1 else if a = 0 then 1 else 2

theorem Dev.readExact_used (n : Nat) (d : Dev) (hd : d.Full) :
    Dev.Used (exactCalls n (d.img.length - d.pos)) d (Dev.readExact n d).2 := by
  unfold Dev.readExact exactCalls
  by_cases h0 : n = 0
  · simp only [h0, Dev.readExactAux]
    exact .refl d
  rw [if_neg h0, show n + d.sched.length + 1 = (n - 1 + d.sched.length + 1) + 1 by omega]
  unfold Dev.readExactAux
  rw [if_neg h0]
  obtain ⟨d1, e1, p1, u1⟩ := Dev.read_used n d hd
  rw [e1]
  dsimp only
  rw [List.length_take, List.length_drop] at p1 ⊢
  by_cases h1 : n ≤ d.img.length - d.pos
  · rw [if_pos h1, Nat.min_eq_left h1, if_neg h0, Nat.sub_self]
    simp only [Dev.readExactAux]
    exact u1
  rw [if_neg h1]
  by_cases h2 : d.img.length - d.pos = 0
  · rw [if_pos h2, if_pos (by omega)]
    exact u1
  rw [if_neg h2, if_neg (by omega)]
  unfold Dev.readExactAux
  rw [if_neg (by omega)]
  obtain ⟨d2, e2, _, u2⟩ := Dev.read_used (n - min n (d.img.length - d.pos)) d1 (u1.full hd)
  rw [e2]
  dsimp only
  have : (List.take (n - min n (d.img.length - d.pos)) (List.drop d1.pos d1.img)).length = 0 := by
    rw [List.length_take, List.length_drop, u1.img, p1]; omega
  rw [if_pos this]
  exact u1.trans u2

/-! ### Reading the bytes of a non-resident value -/

theorem sharedRuns_zero (rs : List DataRun) (k : Nat) : sharedRuns rs k 0 = 0 := by
  induction rs generalizing k with
  | nil => rfl
  | cons r rs ih => simp [sharedRuns, ih]

/-- Reading from a run inside the image: two calls if the run is stored, none if it is sparse, and all
the bytes asked for that the run has. -/
theorem DataRun.read_used (r : DataRun) (buf : Bytes) (d : Dev) (hd : d.Full)
    (hok : RunOk d.img r) (himg : d.img.length < U64) (hlt : r.streamPosition < r.allocatedSize) :
    ∃ b d', r.read buf d = (.ok (min buf.length (r.allocatedSize - r.streamPosition)),
        { r with streamPosition :=
            r.streamPosition + min buf.length (r.allocatedSize - r.streamPosition) }, b, d') ∧
      b.length = buf.length ∧ Dev.Used (if r.position.isSome then 2 else 0) d d' := by
  unfold DataRun.read
  rw [if_neg (by unfold DataRun.remainingLen; omega)]
  dsimp only [DataRun.remainingLen]
  cases hp : r.position with
  | none =>
    refine ⟨_, d, rfl, ?_, .refl d⟩
    rw [overwrite_length (by rw [List.length_replicate]; omega)]
  | some p =>
    have hin := hok.inside p hp
    dsimp only
    rw [if_pos (by omega)]
    obtain ⟨d1, e1, p1, u1⟩ := Dev.seekStart_used (p + r.streamPosition) d hd
    rw [e1]
    dsimp only
    obtain ⟨d2, e2, _, u2⟩ :=
      Dev.read_used (min buf.length (r.allocatedSize - r.streamPosition)) d1 (u1.full hd)
    rw [e2]
    dsimp only
    have hlen : (List.take (min buf.length (r.allocatedSize - r.streamPosition))
        (d1.img.drop d1.pos)).length = min buf.length (r.allocatedSize - r.streamPosition) := by
      rw [List.length_take, List.length_drop, u1.img, p1]; omega
    rw [hlen]
    refine ⟨_, d2, rfl, ?_, u1.trans u2⟩
    rw [overwrite_length (by rw [hlen]; omega)]

/-- The loop of `read`. -/
theorem readLoop_used (fuel : Nat) (v : NonRes) (buf : Bytes) (br : Nat) (d : Dev)
    (post : List DataRun) (hd : d.Full) (himg : d.img.length < U64)
    (hy : Yields v.runs post) (hcur : ∀ r, v.st.run = some r → RunOk d.img r)
    (hpost : ∀ r ∈ post, RunOk d.img r) (hbr : br ≤ buf.length)
    (hfuel : buf.length - br + post.length < fuel) :
    Dev.Used (2 * sharedRuns (pending v.st post) 0
        (min (buf.length - br) (v.st.dataSize - v.st.streamPosition))) d
      (NonRes.readLoop fuel v buf br d).2.2.2 := by
  induction fuel generalizing v buf br d post with
  | zero => omega
  | succ fuel ih =>
    unfold NonRes.readLoop
    by_cases hlt : br < buf.length
    case neg =>
      rw [if_neg hlt, show min (buf.length - br) (v.st.dataSize - v.st.streamPosition) = 0 by omega,
        sharedRuns_zero]
      exact .refl d
    rw [if_pos hlt]
    by_cases hskip : ∀ r, v.st.run = some r →
        r.allocatedSize ≤ r.streamPosition ∨ v.st.dataSize ≤ v.st.streamPosition
    · rw [readDataRun_skip _ _ _ _ hskip]
      dsimp only
      have hpend : sharedRuns (pending v.st post) 0
            (min (buf.length - br) (v.st.dataSize - v.st.streamPosition)) =
          sharedRuns post 0 (min (buf.length - br) (v.st.dataSize - v.st.streamPosition)) := by
        cases hr : v.st.run with
        | none => simp [pending, hr]
        | some r =>
          rcases hskip r hr with h | h
          · simp only [pending, hr, Option.toList, List.cons_append, List.nil_append, sharedRuns]
            rw [if_neg (by omega), Nat.zero_add]
            congr 1 <;> omega
          · rw [show min (buf.length - br) (v.st.dataSize - v.st.streamPosition) = 0 by omega,
              sharedRuns_zero, sharedRuns_zero]
      rw [hpend]
      cases post with
      | nil =>
        obtain ⟨runs', e, hy'⟩ := nextDataRun_done' v hy
        rw [e]
        exact .refl d
      | cons x xs =>
        obtain ⟨runs', e, hy'⟩ := nextDataRun_step v x xs hy
        rw [e]
        dsimp only
        exact ih { v with runs := runs', st := { v.st with run := some x } } buf br d xs hd himg hy'
            (by intro r hr; injection hr with hr; subst hr; exact hpost _ (by simp))
            (fun r hr => hpost r (by simp [hr])) hbr (by simp at hfuel; omega)
    · have hr : ∃ r, v.st.run = some r ∧ r.streamPosition < r.allocatedSize ∧
          v.st.streamPosition < v.st.dataSize := by
        cases hr : v.st.run with
        | none => exact absurd (fun r h => by rw [hr] at h; cases h) hskip
        | some r =>
          refine ⟨r, rfl, ?_⟩
          by_cases hh : r.allocatedSize ≤ r.streamPosition ∨ v.st.dataSize ≤ v.st.streamPosition
          · exact absurd (fun r' h => by rw [hr] at h; injection h with h; subst h; exact hh) hskip
          · omega
      obtain ⟨r, hr, hlt2, hsz⟩ := hr
      have hok := hcur r hr
      unfold StreamState.readDataRun
      rw [hr]
      dsimp only
      rw [if_neg (by omega), if_neg (by omega)]
      rw [show br + min (buf.length - br) (v.st.dataSize - v.st.streamPosition) - br =
        min (buf.length - br) (v.st.dataSize - v.st.streamPosition) by omega]
      have hl : ((buf.drop br).take (min (buf.length - br) (v.st.dataSize - v.st.streamPosition))).length =
          min (buf.length - br) (v.st.dataSize - v.st.streamPosition) := by
        rw [List.length_take, List.length_drop]; omega
      obtain ⟨b, d1, e, hb, u⟩ := DataRun.read_used r
        ((buf.drop br).take (min (buf.length - br) (v.st.dataSize - v.st.streamPosition))) d hd hok
        himg hlt2
      rw [e, hl]
      rw [hl] at hb
      dsimp only
      rw [if_neg (by omega)]
      dsimp only
      generalize hm : min (buf.length - br) (v.st.dataSize - v.st.streamPosition) = m at *
      have hol : (overwrite buf br b).length = buf.length := overwrite_length (by omega)
      have key := ih { v with st := { v.st with
              run := some { r with streamPosition :=
                r.streamPosition + min m (r.allocatedSize - r.streamPosition) }
              streamPosition := v.st.streamPosition + min m (r.allocatedSize - r.streamPosition) } }
          (overwrite buf br b) (br + min m (r.allocatedSize - r.streamPosition)) d1 post (u.full hd)
          (by rw [u.img]; exact himg) hy
          (by
            intro r' hr'; injection hr' with hr'; subst hr'
            rw [u.img]
            exact ⟨by have := hok.le; dsimp only; omega, hok.lt, hok.inside, hok.placed⟩)
          (by rw [u.img]; exact hpost) (by rw [hol]; omega) (by rw [hol]; omega)
      dsimp only at key
      rw [hol] at key
      have hm2 : min (buf.length - (br + min m (r.allocatedSize - r.streamPosition)))
          (v.st.dataSize - (v.st.streamPosition + min m (r.allocatedSize - r.streamPosition))) =
          m - (r.allocatedSize - r.streamPosition) := by omega
      rw [hm2] at key
      have hs1 : sharedRuns (pending v.st post) 0 m = (if r.position.isSome then 1 else 0) +
          sharedRuns post 0 (m - (r.allocatedSize - r.streamPosition)) := by
        simp only [pending, hr, Option.toList, List.cons_append, List.nil_append, sharedRuns]
        congr 1
        · by_cases hi : r.position.isSome
          · rw [if_pos hi, if_pos ⟨hi, by omega, by omega⟩]
          · rw [if_neg hi, if_neg (fun h => hi h.1)]
        · congr 1; omega
      have hs2 : sharedRuns (pending { v.st with
              run := some { r with streamPosition :=
                r.streamPosition + min m (r.allocatedSize - r.streamPosition) }
              streamPosition := v.st.streamPosition + min m (r.allocatedSize - r.streamPosition) } post) 0
            (m - (r.allocatedSize - r.streamPosition)) =
          sharedRuns post 0 (m - (r.allocatedSize - r.streamPosition)) := by
        simp only [pending, Option.toList, List.cons_append, List.nil_append, sharedRuns]
        rw [if_neg (by omega), Nat.zero_add]
        by_cases hc : m ≤ r.allocatedSize - r.streamPosition
        · rw [show m - (r.allocatedSize - r.streamPosition) = 0 by omega]
          simp only [Nat.zero_sub, sharedRuns_zero]
        · congr 1 <;> omega
      rw [hs2] at key
      rw [hs1, show 2 * ((if r.position.isSome then 1 else 0) +
          sharedRuns post 0 (m - (r.allocatedSize - r.streamPosition))) =
        (if r.position.isSome then 2 else 0) +
          2 * sharedRuns post 0 (m - (r.allocatedSize - r.streamPosition)) by
          split <;> omega]
      exact u.trans key

end NT
