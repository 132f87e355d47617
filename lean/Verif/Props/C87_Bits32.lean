import Verif.Model.Bits32
import Verif.Props.C49_Safety
import Verif.Props.C53_Copy

/-! C87: reading from a value on a 32-bit target. -/

namespace NT

open Spec

/-- One operation of a user, on a 32-bit target. -/
def NonRes.step32 (v : NonRes) (d : Dev) : Op → Out × NonRes × Dev
  | .read buf =>
    let (r, v', buf', d') := v.read32 buf d
    ({ result := r, buf := buf' }, v', d')
  | .seek s =>
    let (r, v') := v.seek s
    ({ result := r, buf := [] }, v', d)

/-- A history of operations on a 32-bit target. -/
def NonRes.run32 (v : NonRes) (d : Dev) : List Op → List Out × NonRes × Dev
  | [] => ([], v, d)
  | op :: ops =>
    let (o, v', d') := v.step32 d op
    let (os, v'', d'') := v'.run32 d' ops
    (o :: os, v'', d'')

/-! ### Small values -/

/-- The size of the value is below `m`, and all its runs are shorter than 4 GiB. -/
structure NonRes.Narrow (m : Nat) (v : NonRes) : Prop where
  size : v.st.dataSize < m
  ahead : ∀ n x, (v.runs.after n).next.1 = some (.ok x) → x.allocatedSize < U32
  fresh : ∀ n x, (v.dataRuns.after n).next.1 = some (.ok x) → x.allocatedSize < U32
  cur : ∀ r, v.st.run = some r → r.allocatedSize < U32

theorem DataRun.read32_eq {r : DataRun} (buf : Bytes) (d : Dev) (h : r.allocatedSize < U32) :
    r.read32 buf d = r.read buf d := by
  unfold DataRun.read32 DataRun.read
  rw [Nat.mod_eq_of_lt (show r.remainingLen < U32 by unfold DataRun.remainingLen; omega)]
  rfl

theorem StreamState.readDataRun32_eq {s : StreamState} (buf : Bytes) (br : Nat) (d : Dev) (hs : s.dataSize < U32)
    (h : ∀ r, s.run = some r → r.allocatedSize < U32) : s.readDataRun32 buf br d = s.readDataRun buf br d := by
  unfold StreamState.readDataRun32 StreamState.readDataRun
  cases hr : s.run with
  | none => rfl
  | some r =>
    dsimp only
    rw [Nat.mod_eq_of_lt (show s.dataSize - s.streamPosition < U32 by omega), DataRun.read32_eq _ _ (h r hr)]
    rfl

theorem nextDataRun_narrow {m : Nat} {v : NonRes} (h : v.Narrow m) : v.nextDataRun.2.Narrow m := by
  have hahead : ∀ n x, (v.runs.next.2.after n).next.1 = some (.ok x) → x.allocatedSize < U32 :=
    fun n => h.ahead (n + 1)
  unfold NonRes.nextDataRun
  cases hn : v.runs.next with
  | mk o runs' =>
    rw [hn] at hahead
    dsimp only at hahead
    rcases o with _ | (x | x | x | _)
    · exact ⟨h.size, hahead, h.fresh, h.cur⟩
    · refine ⟨h.size, hahead, h.fresh, fun r hr => ?_⟩
      cases hr
      exact h.ahead 0 x (by simp only [DataRuns.after]; rw [hn])
    all_goals exact ⟨h.size, hahead, h.fresh, h.cur⟩

theorem readDataRun_dataSize (s : StreamState) (buf : Bytes) (br : Nat) (d : Dev) :
    (s.readDataRun buf br d).2.1.dataSize = s.dataSize := by
  unfold StreamState.readDataRun
  repeat' first | rfl | split | dsimp only

theorem seekDataRun_dataSize (s : StreamState) (pos : SeekFrom) (left : Nat) :
    (s.seekDataRun pos left).2.1.dataSize = s.dataSize := by
  unfold StreamState.seekDataRun
  repeat' first | rfl | split | dsimp only

theorem narrow_of_place {m : Nat} {v : NonRes} {s' : StreamState} (h : v.Narrow m) (hs : s'.dataSize = v.st.dataSize)
    (hp : s'.run.map DataRun.place = v.st.run.map DataRun.place) : NonRes.Narrow m { v with st := s' } := by
  refine ⟨hs ▸ h.size, h.ahead, h.fresh, fun r hr => ?_⟩
  dsimp only at hr
  rw [hr] at hp
  cases h0 : v.st.run with
  | none => rw [h0] at hp; cases hp
  | some r0 =>
    rw [h0] at hp
    simp only [Option.map_some, Option.some.injEq, DataRun.place, Prod.mk.injEq] at hp
    rw [hp.2]
    exact h.cur r0 h0

theorem readLoop32_eq (fuel : Nat) : ∀ (v : NonRes) (buf : Bytes) (br : Nat) (d : Dev), v.Narrow U32 →
    NonRes.readLoop32 fuel v buf br d = NonRes.readLoop fuel v buf br d ∧
      (NonRes.readLoop fuel v buf br d).2.1.Narrow U32 := by
  induction fuel with
  | zero => exact fun _ _ _ _ h => ⟨rfl, h⟩
  | succ fuel ih =>
    intro v buf br d h
    unfold NonRes.readLoop32 NonRes.readLoop
    by_cases hlt : br < buf.length
    case neg => rw [if_neg hlt, if_neg hlt]; exact ⟨rfl, h⟩
    rw [if_pos hlt, if_pos hlt, StreamState.readDataRun32_eq _ _ _ h.size h.cur]
    have hs := readDataRun_dataSize v.st buf br d
    have hp := readDataRun_place v.st buf br d
    cases hr : v.st.readDataRun buf br d with
    | mk x y =>
      obtain ⟨st', buf', br', d'⟩ := y
      rw [hr] at hs hp
      have h' := narrow_of_place h hs hp
      rcases x with ⟨_ | _⟩ | x | x | _
      · dsimp only
        have hn := nextDataRun_narrow h'
        cases hx : NonRes.nextDataRun { v with st := st' } with
        | mk x' v' =>
          rw [hx] at hn
          rcases x' with ⟨_ | _⟩ | x' | x' | _
          · exact ⟨rfl, hn⟩
          · exact ih _ _ _ _ hn
          all_goals exact ⟨rfl, hn⟩
      · exact ih _ _ _ _ h'
      all_goals exact ⟨rfl, h'⟩

theorem seekLoop_narrow {m : Nat} (fuel : Nat) : ∀ (v : NonRes) (pos : SeekFrom) (left : Nat), v.Narrow m →
    (NonRes.seekLoop fuel v pos left).2.Narrow m := by
  induction fuel with
  | zero => exact fun _ _ _ h => h
  | succ fuel ih =>
    intro v pos left h
    unfold NonRes.seekLoop
    by_cases hlt : left > 0
    case neg => rw [if_neg hlt]; exact h
    rw [if_pos hlt]
    have hs := seekDataRun_dataSize v.st pos left
    have hp := seekDataRun_place v.st pos left
    cases hr : v.st.seekDataRun pos left with
    | mk x y =>
      obtain ⟨st', left'⟩ := y
      rw [hr] at hs hp
      have h' := narrow_of_place h hs hp
      rcases x with ⟨_ | _⟩ | x | x | _
      · dsimp only
        have hn := nextDataRun_narrow h'
        cases hx : NonRes.nextDataRun { v with st := st' } with
        | mk x' v' =>
          rw [hx] at hn
          rcases x' with ⟨_ | _⟩ | x' | x' | _
          · exact ⟨hn.size, hn.ahead, hn.fresh, fun r hr => nomatch hr⟩
          · exact ih _ _ _ hn
          all_goals exact hn
      all_goals exact h'

theorem seek_narrow {m : Nat} {v : NonRes} (pos : SeekFrom) (h : v.Narrow m) : (v.seek pos).2.Narrow m := by
  have hre : v.rewind.2.Narrow m := by
    have h0 : NonRes.Narrow m { v with runs := v.dataRuns, st := StreamState.new v.len } :=
      ⟨h.size, h.fresh, h.fresh, fun r hr => nomatch hr⟩
    have hn := nextDataRun_narrow h0
    unfold NonRes.rewind
    cases hx : NonRes.nextDataRun { v with runs := v.dataRuns, st := StreamState.new v.len } with
    | mk x v' =>
      rw [hx] at hn
      rcases x with x | x | x | _ <;> exact hn
  unfold NonRes.seek
  cases v.st.optimizeSeek pos v.len with
  | ok p =>
    cases p with
    | start n =>
      dsimp only
      cases hx : v.rewind with
      | mk x v1 =>
        rw [hx] at hre
        rcases x with x | x | x | _
        · dsimp only
          have hl := seekLoop_narrow (v.data.length + 2) v1 (.start n) n hre
          cases hy : NonRes.seekLoop (v.data.length + 2) v1 (.start n) n with
          | mk y v2 =>
            rw [hy] at hl
            rcases y with y | y | y | _
            · exact ⟨hl.size, hl.ahead, hl.fresh, hl.cur⟩
            all_goals exact hl
        all_goals exact hre
    | current n =>
      dsimp only
      split
      · have hl := seekLoop_narrow (v.data.length + 2) v (.current n) n.toNat h
        cases hy : NonRes.seekLoop (v.data.length + 2) v (.current n) n.toNat with
        | mk y v2 =>
          rw [hy] at hl
          rcases y with y | y | y | _
          · dsimp only
            split
            · exact ⟨hl.size, hl.ahead, hl.fresh, hl.cur⟩
            · exact hl
          all_goals exact hl
      · exact h
    | end_ n => exact h
  | err => exact h
  | panic => exact h
  | diverge => exact h

theorem run32_eq : ∀ (ops : List Op) (v : NonRes) (d : Dev), v.Narrow U32 → v.run32 d ops = v.run d ops
  | [], _, _, _ => rfl
  | op :: ops, v, d, h => by
    have h0 : v.step32 d op = v.step d op ∧ (v.step d op).2.1.Narrow U32 := by
      cases op with
      | seek s => exact ⟨rfl, seek_narrow s h⟩
      | read buf =>
        have := readLoop32_eq (buf.length + v.data.length + v.runs.data.length + 2) v buf 0 d h
        refine ⟨?_, this.2⟩
        unfold NonRes.step32 NonRes.step NonRes.read32 NonRes.read
        dsimp only
        rw [this.1]
    simp only [NonRes.run32, NonRes.run, h0.1]
    rw [run32_eq ops _ _ h0.2]

theorem new_narrow {cs : Nat} {data : Bytes} {p : Pos} {size m : Nat} (hsize : size < m)
    (hruns : ∀ n x, ((DataRuns.new cs data p).after n).next.1 = some (.ok x) → x.allocatedSize < U32)
    {v : NonRes} (hv : NonRes.new cs data p size = .ok v) : v.Narrow m := by
  have h0 : NonRes.Narrow m (NonRes.mk cs data p (DataRuns.new cs data p) (StreamState.new size)) :=
    ⟨hsize, hruns, hruns, fun r hr => nomatch hr⟩
  have hn := nextDataRun_narrow h0
  unfold NonRes.new at hv
  dsimp only at hv
  cases hx : NonRes.nextDataRun (NonRes.mk cs data p (DataRuns.new cs data p) (StreamState.new size)) with
  | mk x v' =>
    rw [hx] at hv hn
    rcases x with x | x | x | _
    · cases hv
      exact hn
    all_goals cases hv

/-- **C87, partial**: a value whose size and runs are below 4 GiB behaves on a 32-bit target as on a 64-bit one. This holds for
arbitrary bytes of run information, for every device and for every history of reads and seeks.

Full claim: all values. It is false, see `C87_empty_negation` and `C87_shift_negation`. -/
theorem C87_small_partial (cs : Nat) (data : Bytes) (p : Pos) (size : Nat) (hsize : size < U32)
    (hruns : ∀ n x, ((DataRuns.new cs data p).after n).next.1 = some (.ok x) → x.allocatedSize < U32)
    {v : NonRes} (hv : NonRes.new cs data p size = .ok v) (d : Dev) (ops : List Op) :
    v.run32 d ops = v.run d ops :=
  run32_eq ops _ d (new_narrow hsize hruns hv)

/-! ### Large values -/

/-- What the remaining length of a value is taken for. -/
def StreamState.seen (s : StreamState) : Nat := (s.dataSize - s.streamPosition) % U32

/-- The same for a value. -/
abbrev NonRes.seen (v : NonRes) : Nat := v.st.seen

theorem readDataRun32_skip (s : StreamState) (buf : Bytes) (br : Nat) (d : Dev) (hd : d.NoFail) (himg : d.img.length < U64)
    (hok : ∀ r, s.run = some r → RunOk d.img r)
    (h : ∀ r, s.run = some r → r.allocatedSize ≤ r.streamPosition ∨ (s.dataSize - s.streamPosition) % U32 = 0) :
    ∃ d', s.readDataRun32 buf br d = (.ok false, s, buf, br, d') ∧ d'.img = d.img ∧ d'.NoFail := by
  unfold StreamState.readDataRun32
  cases hr : s.run with
  | none => exact ⟨d, rfl, rfl, hd⟩
  | some r =>
    dsimp only
    by_cases h1 : r.streamPosition ≥ r.allocatedSize
    · rw [if_pos h1]
      exact ⟨d, rfl, rfl, hd⟩
    rw [if_neg h1]
    by_cases h2 : s.dataSize - s.streamPosition = 0
    · rw [if_pos h2]
      exact ⟨d, rfl, rfl, hd⟩
    have h3 := (h r hr).resolve_left (by omega)
    have hs : (buf.drop br).take (br + min (buf.length - br) ((s.dataSize - s.streamPosition) % U32) - br) = [] := by
      rw [h3]
      simp
    have hrun : s = { s with run := some r } := by rw [← hr]
    rw [if_neg h2, hs]
    unfold DataRun.read32 DataRun.remainingLen
    rw [if_neg (by omega)]
    dsimp only [List.length_nil]
    rw [Nat.zero_min]
    cases hp : r.position with
    | none =>
      refine ⟨d, ?_, rfl, hd⟩
      dsimp only [List.replicate_zero]
      rw [if_pos rfl]
      simp only [overwrite_nil, Nat.add_zero]
      rw [← hp, ← hrun]
    | some p =>
      have hin := (hok r hr).inside p hp
      have := (hok r hr).le
      dsimp only
      rw [if_pos (by omega)]
      obtain ⟨d1, e1, i1, p1, n1⟩ := Dev.seekStart_ok (p + r.streamPosition) d hd
      rw [e1]
      dsimp only
      obtain ⟨k, d2, e2, hk, _, i2, _, n2, _⟩ := Dev.read_ok 0 d1 n1
      have hk0 : k = 0 := by omega
      rw [hk0, List.take_zero] at e2
      rw [e2]
      refine ⟨d2, ?_, by rw [i2, i1], n2⟩
      dsimp only [List.length_nil]
      rw [if_pos rfl]
      simp only [overwrite_nil, Nat.add_zero]
      rw [← hp, ← hrun]

theorem readDataRun32_read (s : StreamState) (buf : Bytes) (br : Nat) (d : Dev) (r : DataRun)
    (hd : d.NoFail) (himg : d.img.length < U64) (hr : s.run = some r) (hok : RunOk d.img r) (hn : r.allocatedSize < U32)
    (hlt : r.streamPosition < r.allocatedSize) (hsize : 0 < (s.dataSize - s.streamPosition) % U32)
    (hbr : br < buf.length) :
    ∃ n d', s.readDataRun32 buf br d =
        (.ok true,
          { s with
            run := some { r with streamPosition := r.streamPosition + n }
            streamPosition := s.streamPosition + n },
          overwrite buf br ((runBytes d.img r).take n), br + n, d') ∧
      0 < n ∧ br + n ≤ buf.length ∧ n ≤ r.allocatedSize - r.streamPosition ∧
      n ≤ (s.dataSize - s.streamPosition) % U32 ∧ d'.img = d.img ∧ d'.NoFail := by
  have hmod := Nat.mod_le (s.dataSize - s.streamPosition) U32
  unfold StreamState.readDataRun32
  rw [hr]
  dsimp only
  rw [if_neg (by omega), if_neg (by omega)]
  obtain ⟨q, hq⟩ : ∃ q, q = (s.dataSize - s.streamPosition) % U32 := ⟨_, rfl⟩
  rw [← hq] at hsize ⊢
  have hk : br + min (buf.length - br) q - br = min (buf.length - br) q := by omega
  rw [hk]
  have hl : ((buf.drop br).take (min (buf.length - br) q)).length = min (buf.length - br) q := by
    rw [List.length_take, List.length_drop]; omega
  obtain ⟨n, d', e, h1, h2, h3, h4, h5⟩ := DataRun.read_ok r ((buf.drop br).take (min (buf.length - br) q)) d hd hok himg hlt
    (by omega)
  rw [DataRun.read32_eq _ _ hn, e]
  dsimp only
  rw [if_neg (by omega)]
  refine ⟨n, d', ?_, h1, by omega, h3, by omega, h4, h5⟩
  rw [overwrite_slice _ _ _ _ (by rw [List.length_take]; omega) (by omega)]

/-- The loop of `read` on a 32-bit target, for runs shorter than 4 GiB. -/
theorem readLoop32_ok (fuel : Nat) (v : NonRes) (buf : Bytes) (br : Nat) (d : Dev)
    (post : List DataRun) (hd : d.NoFail) (himg : d.img.length < U64)
    (hy : Yields v.runs post) (hcur : ∀ r, v.st.run = some r → RunOk d.img r ∧ r.allocatedSize < U32)
    (hpost : ∀ r ∈ post, RunOk d.img r ∧ r.allocatedSize < U32) (hbr : br ≤ buf.length)
    (hfuel : buf.length - br + post.length < fuel) :
    ∃ got v' post' d',
      got = (restBytes d.img (pending v.st post)).take (min (buf.length - br) v.seen) ∧
      NonRes.readLoop32 fuel v buf br d = (.ok (br + got.length), v', overwrite buf br got, d') ∧
      d'.img = d.img ∧ d'.NoFail ∧
      v' = { v with runs := v'.runs, st := { v.st with run := v'.st.run, streamPosition := v.st.streamPosition + got.length } } ∧
      Yields v'.runs post' ∧ (∀ r, v'.st.run = some r → RunOk d.img r ∧ r.allocatedSize < U32) ∧
      (∀ r ∈ post', r ∈ post) ∧ post'.length ≤ post.length ∧
      (Shift d.img (pending v'.st post') (pending v.st post) got.length ∨ v'.seen = 0) := by
  induction fuel generalizing v buf br d post with
  | zero => omega
  | succ fuel ih =>
    unfold NonRes.readLoop32
    by_cases hlt : br < buf.length
    case neg =>
      rw [if_neg hlt]
      have : min (buf.length - br) v.seen = 0 := by omega
      refine ⟨[], v, post, d, by rw [this, List.take_zero], ?_, rfl, hd, rfl, hy, hcur,
        fun _ h => h, Nat.le_refl _, .inl (Shift.refl _ _)⟩
      rw [overwrite_nil]; rfl
    rw [if_pos hlt]
    by_cases hskip : ∀ r, v.st.run = some r → r.allocatedSize ≤ r.streamPosition ∨ v.seen = 0
    · obtain ⟨d0, e0, i0, n0⟩ := readDataRun32_skip v.st buf br d hd himg (fun r hr => (hcur r hr).1) hskip
      rw [e0]
      dsimp only
      have hpend : ∀ k, (restBytes d.img (pending v.st post)).take (min k v.seen) =
          (restBytes d.img post).take (min k v.seen) := by
        intro k
        cases hr : v.st.run with
        | none => simp [pending, hr]
        | some r =>
          rcases hskip r hr with h | h
          · simp [pending, hr, restBytes_cons, runBytes_end _ _ h]
          · rw [h, Nat.min_zero, List.take_zero, List.take_zero]
      cases post with
      | nil =>
        obtain ⟨runs', e, hy'⟩ := nextDataRun_done' v hy
        rw [e]
        dsimp only
        refine ⟨[], { v with runs := runs' }, [], d0, ?_, ?_, i0, n0, rfl, hy', hcur, fun _ h => h,
          Nat.le_refl _, .inl (Shift.refl _ _)⟩
        · rw [hpend]; simp
        · rw [overwrite_nil]; rfl
      | cons x xs =>
        obtain ⟨runs', e, hy'⟩ := nextDataRun_step v x xs hy
        rw [e]
        dsimp only
        obtain ⟨got, v', post', d', h1, h2, h3, h4, h5, h6, h7, h8, h9, h10⟩ :=
          ih { v with runs := runs', st := { v.st with run := some x } } buf br d0 xs n0 (by rw [i0]; exact himg) hy'
            (by intro r hr; injection hr with hr; subst hr; rw [i0]; exact hpost _ (by simp))
            (fun r hr => by rw [i0]; exact hpost r (by simp [hr])) hbr (by simp at hfuel; omega)
        have hp : restBytes d.img (pending { v.st with run := some x } xs) =
            restBytes d.img (x :: xs) := by simp [pending]
        have hseen : NonRes.seen { v with runs := runs', st := { v.st with run := some x } } = v.seen := rfl
        rw [hseen] at h1
        dsimp only at h1 h2 h5 h10
        rw [i0] at h1 h3 h7 h10
        rw [hp] at h1
        refine ⟨got, v', post', d', ?_, h2, h3, h4, h5, h6, h7, ?_, ?_, ?_⟩
        · rw [hpend, h1]
        · intro r hr; simp [h8 r hr]
        · simp; omega
        · rcases h10 with h | h
          · cases hr : v.st.run with
            | none => left; simpa [pending, hr] using h
            | some r =>
              rcases hskip r hr with hh | hh
              · left
                have := h.trans (Shift.skipDone (img := d.img) (x :: xs) hh)
                simpa [pending, hr] using this
              · right
                rw [hh, Nat.min_zero, List.take_zero] at h1
                subst h1
                rw [h5]
                exact hh
          · exact .inr h
    · -- the current run is read
      have hr : ∃ r, v.st.run = some r ∧ r.streamPosition < r.allocatedSize ∧ 0 < v.seen := by
        cases hr : v.st.run with
        | none => exact absurd (fun r h => by rw [hr] at h; cases h) hskip
        | some r =>
          refine ⟨r, rfl, ?_⟩
          by_cases hh : r.allocatedSize ≤ r.streamPosition ∨ v.seen = 0
          · exact absurd (fun r' h => by rw [hr] at h; injection h with h; subst h; exact hh) hskip
          · omega
      obtain ⟨r, hr, hlt2, hsz⟩ := hr
      obtain ⟨hok, hnar⟩ := hcur r hr
      obtain ⟨n, d1, e, h1, h2, h3, h4, h5, h6⟩ :=
        readDataRun32_read v.st buf br d r hd himg hr hok hnar hlt2 hsz hlt
      rw [e]
      dsimp only
      have hbl : ((runBytes d.img r).take n).length = n := by
        rw [List.length_take, runBytes_length hok]; omega
      have hol : (overwrite buf br ((runBytes d.img r).take n)).length = buf.length :=
        overwrite_length (by omega)
      obtain ⟨got, v', post', d', g1, g2, g3, g4, g5, g6, g7, g8, g9, g10⟩ :=
        ih { v with st := { v.st with
              run := some { r with streamPosition := r.streamPosition + n }
              streamPosition := v.st.streamPosition + n } }
          (overwrite buf br ((runBytes d.img r).take n)) (br + n) d1 post h6 (by rw [h5]; exact himg) hy
          (by
            intro r' hr'; injection hr' with hr'; subst hr'
            rw [h5]
            exact ⟨⟨by have := hok.le; dsimp only; omega, hok.lt, hok.inside, hok.placed⟩, hnar⟩)
          (by rw [h5]; exact hpost) (by rw [hol]; exact h2) (by rw [hol]; omega)
      have hseen : NonRes.seen { v with st := { v.st with
              run := some { r with streamPosition := r.streamPosition + n }
              streamPosition := v.st.streamPosition + n } } = v.seen - n := by
        unfold NonRes.seen StreamState.seen at *
        dsimp only
        omega
      rw [hseen] at g1
      dsimp only at g1 g2 g5 g10
      rw [h5] at g1 g3 g7 g10
      have hp : restBytes d.img (pending v.st post) = runBytes d.img r ++ restBytes d.img post := by
        simp [pending, hr, restBytes_cons]
      have hp' : restBytes d.img (pending { v.st with
              run := some { r with streamPosition := r.streamPosition + n }
              streamPosition := v.st.streamPosition + n } post) =
          (restBytes d.img (pending v.st post)).drop n := by
        rw [hp, List.drop_append_of_le_length (by rw [runBytes_length hok]; omega)]
        simp [pending, restBytes_cons, runBytes_advance]
      rw [hp', hol] at g1
      have ht : (runBytes d.img r).take n = (restBytes d.img (pending v.st post)).take n := by
        rw [hp, List.take_append_of_le_length (by rw [runBytes_length hok]; omega)]
      have h4' : n ≤ v.seen := h4
      refine ⟨(runBytes d.img r).take n ++ got, v', post', d', ?_, ?_, g3, g4, ?_, g6, g7, g8, g9, ?_⟩
      · rw [ht, g1, ← List.take_add]
        congr 1; omega
      · rw [g2, List.length_append, hbl]
        have := overwrite_append buf ((runBytes d.img r).take n) got br (by omega)
        rw [hbl] at this
        rw [this]
        congr 2
        omega
      · rw [g5, List.length_append, hbl]
        simp only [Nat.add_assoc]
      · rw [List.length_append, hbl]
        rcases g10 with h | h
        · left
          have := h.trans (Shift.advance (img := d.img) post n hok h3)
          simpa [pending, hr] using this
        · exact .inr h

/-- A value with the runs `all`, all shorter than 4 GiB, on a 32-bit target: its runs are where the position is, or it has
taken the value for finished. -/
structure NonRes.Good32 (img : Bytes) (all : List DataRun) (v : NonRes) : Prop where
  allOk : ∀ r ∈ all, RunOk img r ∧ r.allocatedSize < U32
  few : all.length ≤ v.data.length
  cur : ∀ r, v.st.run = some r → RunOk img r ∧ r.allocatedSize < U32
  pend : ∃ post, Yields v.runs post ∧ (∀ r ∈ post, r ∈ all) ∧ post.length ≤ all.length ∧
    (Shift img (pending v.st post) all v.st.streamPosition ∨ v.seen = 0)

theorem NonRes.read32_good {img : Bytes} {all : List DataRun} {v : NonRes} (hg : v.Good32 img all)
    (himg : img.length < U64) (buf : Bytes) (d : Dev) (hd : d.Ok img) :
    ∃ got v' d', got = ((restBytes img all).drop v.st.streamPosition).take (min buf.length v.seen) ∧
      v.read32 buf d = (.ok got.length, v', got ++ buf.drop got.length, d') ∧
      v'.Good32 img all ∧ v'.st.dataSize = v.st.dataSize ∧
      v'.st.streamPosition = v.st.streamPosition + got.length ∧ d'.Ok img := by
  obtain ⟨hi, hd⟩ := hd
  subst hi
  obtain ⟨post, hy, hsub, hlen, hp⟩ := hg.pend
  have hfew := hg.few
  obtain ⟨got, v', post', d', h1, h2, h3, h4, h5, h6, h7, h8, h9, h10⟩ :=
    readLoop32_ok (buf.length + v.data.length + v.runs.data.length + 2) v buf 0 d post hd himg hy hg.cur
      (fun r hr => hg.allOk r (hsub r hr)) (by omega) (by omega)
  have hgot : got = ((restBytes d.img all).drop v.st.streamPosition).take (min buf.length v.seen) := by
    rw [h1, Nat.sub_zero]
    rcases hp with hp | hp
    · rw [hp.bytes]
    · rw [hp, Nat.min_zero, List.take_zero, List.take_zero]
  have hgl : got.length ≤ v.seen := by rw [h1, List.length_take]; omega
  have hb : overwrite buf 0 got = got ++ buf.drop got.length := by simp [overwrite]
  have e1 : v'.st.streamPosition = v.st.streamPosition + got.length := by rw [h5]
  have e2 : v'.st.dataSize = v.st.dataSize := by rw [h5]
  refine ⟨got, v', d', hgot, ?_, ⟨hg.allOk, by rw [h5]; exact hg.few, h7, post', h6, fun r hr => hsub r (h8 r hr), by omega, ?_⟩,
    e2, e1, h3, h4⟩
  · unfold NonRes.read32
    rw [h2, hb, Nat.zero_add]
  · rcases h10 with h | h
    · rcases hp with hp | hp
      · left
        rw [e1]
        exact h.trans hp
      · right
        rw [hp] at hgl
        unfold NonRes.seen StreamState.seen at hp ⊢
        rw [e1, e2, show got.length = 0 by omega]
        exact hp
    · exact .inr h

/-- A reader in the state of C01 is in this state. -/
theorem NonRes.Good.good32 {img : Bytes} {all : List DataRun} {v : NonRes} (hg : v.Good img all)
    (hn : ∀ r ∈ all, r.allocatedSize < U32) (hc : ∀ r, v.st.run = some r → r.allocatedSize < U32) : v.Good32 img all := by
  obtain ⟨post, hy, hsub, hlen, hp⟩ := hg.pend
  refine ⟨fun r hr => ⟨(hg.allOk r hr).1, hn r hr⟩, hg.few, fun r hr => ⟨hg.curOk r hr, hc r hr⟩, post, hy, hsub, hlen, ?_⟩
  rcases hp with hp | hp
  · exact .inl hp
  · right
    unfold NonRes.seen StreamState.seen
    rw [show v.st.dataSize - v.st.streamPosition = 0 by omega]

theorem NonRes.readsLike32 (img : Bytes) (all : List DataRun) (himg : img.length < U64) :
    ReadsLike NonRes.readFn32 (fun s => s.1.Good32 img all ∧ s.2.Ok img)
      (fun s => ((restBytes img all).drop s.1.st.streamPosition).take s.1.seen) (fun s => s.1.st.streamPosition) := by
  rintro ⟨v, d⟩ buf ⟨hg, hd⟩
  obtain ⟨got, v', d', h1, h2, h3, h4, h5, h6⟩ := NonRes.read32_good hg himg buf d hd
  dsimp only at hg hd h1 h2 h3 h4 h5 h6
  have h1' : got = (((restBytes img all).drop v.st.streamPosition).take v.seen).take buf.length := by
    rw [h1, List.take_take]
  dsimp only
  rw [← h1']
  refine ⟨(v', d'), ?_, ⟨h3, h6⟩, ?_, h5⟩
  · unfold NonRes.readFn32
    dsimp only
    rw [h2]
  · have hgl : got.length ≤ v.seen := by rw [h1, List.length_take]; omega
    have hs : v'.seen = v.seen - got.length := by
      unfold NonRes.seen StreamState.seen at *
      rw [h4, h5]
      omega
    dsimp only
    rw [h5, hs, List.drop_take, List.drop_drop]

theorem yields_mem {rs : DataRuns} {all : List DataRun} (h : Yields rs all) :
    ∀ n x, (rs.after n).next.1 = some (.ok x) → x ∈ all := by
  have hnil : ∀ (n : Nat) (rs : DataRuns), Yields rs [] → ∀ x, (rs.after n).next.1 ≠ some (.ok x) := by
    intro n
    induction n with
    | zero =>
      intro rs h x
      cases h with
      | done e => rw [show rs.after 0 = rs from rfl, e]; exact fun h => nomatch h
    | succ n ih =>
      intro rs h x
      cases h with
      | done e =>
        rw [show rs.after (n + 1) = rs.next.2.after n from rfl, e]
        exact ih _ (yields_nil_next e) x
  induction h with
  | done e => exact fun n x hx => (hnil n _ (.done e) x hx).elim
  | step e _ ih =>
    intro n x hx
    cases n with
    | zero =>
      rw [DataRuns.after, e] at hx
      cases hx
      exact List.mem_cons_self
    | succ n =>
      rw [DataRuns.after, e] at hx
      exact List.mem_cons_of_mem _ (ih n x hx)

/-- The value is open, and after any seek its runs are where the position is. -/
theorem StoredAs.open32 {cs : Nat} {img data : Bytes} {es : List Extent} (h : StoredAs cs img data es)
    (hn : ∀ e ∈ es, e.count * cs < U32) (p : Pos) (size t : Nat) (hsize : size < U64) (ht : t < U64) :
    ∃ v v1, NonRes.new cs data p size = .ok v ∧ v.seek (.start t) = (.ok t, v1) ∧
      v1.Good32 img (es.map (runOf cs)) ∧ v1.st.dataSize = size ∧ v1.st.streamPosition = t ∧
      v.Good32 img (es.map (runOf cs)) ∧ v.st.dataSize = size ∧ v.st.streamPosition = 0 := by
  obtain ⟨v, h1, h2, h3, h4, _⟩ := NonRes.new_good h p size hsize
  have hall : ∀ r ∈ es.map (runOf cs), r.allocatedSize < U32 := by
    intro r hr
    obtain ⟨e, he, rfl⟩ := List.mem_map.1 hr
    exact hn e he
  have hnew := new_narrow hsize (fun n x hx => hall x (yields_mem
    (yields_encoded (DataRuns.new cs data p) es (by simpa [DataRuns.new] using h.enc) h.clusterPos h.rep h.nonZero) n x hx)) h1
  have hs := NonRes.seek_good img _ v h2
  have hn1 := seek_narrow (.start t) hnew
  have htar : seekTarget v.st.streamPosition v.st.dataSize (.start t) = (t : Int) := rfl
  obtain ⟨sk, hsk⟩ : ∃ sk, sk = SeekFrom.start t := ⟨_, rfl⟩
  rw [← hsk] at hn1 htar ⊢
  have hs := hs sk (by rw [hsk]; exact ht)
  rw [htar, if_pos (by unfold validTarget; omega)] at hs
  obtain ⟨v1, g1, g2, _, g4, g5⟩ := hs
  rw [Int.toNat_natCast] at g1 g5
  rw [g1] at hn1
  exact ⟨v, v1, h1, g1, g2.good32 hall hn1.cur, g4.trans h3, g5, h2.good32 hall hnew.cur, h3, h4⟩

/-- **C87, partial**: a value with runs shorter than 4 GiB, on a 32-bit target. A read at any position delivers the right bytes,
but only as many as the lower 32 bits of the remaining length say.

Full claim: as many as are left. -/
theorem C87_read_partial {cs : Nat} {img data : Bytes} {es : List Extent} (h : StoredAs cs img data es)
    (hn : ∀ e ∈ es, e.count * cs < U32) (p : Pos) (size t : Nat) (hsize : size < U64) (ht : t < U64) (buf : Bytes)
    (d : Dev) (hd : d.Ok img) :
    ∃ v v1 v2 d2 got, NonRes.new cs data p size = .ok v ∧ v.seek (.start t) = (.ok t, v1) ∧
      got = ((content cs img es).drop t).take (min buf.length ((size - t) % U32)) ∧
      v1.read32 buf d = (.ok got.length, v2, got ++ buf.drop got.length, d2) := by
  obtain ⟨v, v1, h1, h2, h3, h4, h5, _⟩ := h.open32 hn p size t hsize ht
  obtain ⟨got, v', d', g1, g2, _⟩ := NonRes.read32_good h3 h.imgLt buf d hd
  unfold NonRes.seen StreamState.seen at g1
  rw [h4, h5, restBytes_runOf] at g1
  exact ⟨v, v1, v', d', got, h1, h2, g1, g2⟩

/-- **C87, partial**: copying such a value with a loop of `read` calls ends without an error and delivers exactly the first
`size % 2^32` bytes.

Full claim: all `size` bytes, as in C53. -/
theorem C87_copy_partial {cs : Nat} {img data : Bytes} {es : List Extent} (h : StoredAs cs img data es)
    (hn : ∀ e ∈ es, e.count * cs < U32) (p : Pos) (size : Nat) (hsize : size < U64) (buf : Bytes) (hb : buf ≠ [])
    (d : Dev) (hd : d.Ok img) (fuel : Nat) (hf : size % U32 < fuel) :
    ∃ v v' d', NonRes.new cs data p size = .ok v ∧
      copyLoop NonRes.readFn32 fuel (v, d) buf [] = (.ok (), (v', d'), (content cs img es).take (size % U32)) := by
  obtain ⟨v, _, h1, _, _, _, _, h6, h7, h8⟩ := h.open32 hn p size 0 hsize (by decide)
  have hs : v.seen = size % U32 := by unfold NonRes.seen StreamState.seen; rw [h7, h8, Nat.sub_zero]
  obtain ⟨⟨v', d'⟩, _, _, _, e⟩ := copyLoop_readsLike (NonRes.readsLike32 img _ h.imgLt) fuel (v, d) buf [] ⟨h6, hd⟩ hb
    (by dsimp only; rw [hs, List.length_take]; omega)
  refine ⟨v, v', d', h1, ?_⟩
  rw [e]
  dsimp only
  rw [hs, h8, restBytes_runOf, List.drop_zero, List.nil_append]

/-- **C87 is violated**: a value of exactly 4 GiB, in one sparse run. On a 64-bit target it reads as zeros, on a 32-bit target it
is empty. -/
theorem C87_empty_negation : ∃ v, NonRes.new 4096 [0x03, 0, 0, 16, 0] none U32 = .ok v ∧ v.len = U32 ∧
    (v.run ⟨[], 0, []⟩ [.read [7, 7]]).1 = [⟨.ok 2, [0, 0]⟩] ∧
    (v.run32 ⟨[], 0, []⟩ [.read [7, 7]]).1 = [⟨.ok 0, [7, 7]⟩] :=
  ⟨_, rfl, rfl, by decide +kernel, by decide +kernel⟩

/-- **C87 is violated**: a sparse run of 4 GiB followed by a stored cluster. On a 32-bit target the bytes of the stored cluster
are delivered as the first bytes of the value. -/
theorem C87_shift_negation : ∃ v, NonRes.new 4 [0x04, 0, 0, 0, 64, 0x11, 1, 1, 0] none (U32 + 4) = .ok v ∧
    (v.run ⟨[1, 2, 3, 4, 5, 6, 7, 8], 0, []⟩ [.read [9, 9]]).1 = [⟨.ok 2, [0, 0]⟩] ∧
    (v.run32 ⟨[1, 2, 3, 4, 5, 6, 7, 8], 0, []⟩ [.read [9, 9]]).1 = [⟨.ok 2, [5, 6]⟩] :=
  ⟨_, rfl, by decide +kernel, by decide +kernel⟩

/-- The runs of C01. -/
theorem exNarrow (n : Nat) (x : DataRun)
    (h : ((DataRuns.new 4 [0x11, 1, 2, 0x01, 1, 0x11, 1, 0xFF, 0] none).after n).next.1 = some (.ok x)) :
    x.allocatedSize < U32 := by
  have hx := yields_mem (yields_encoded (DataRuns.new 4 [0x11, 1, 2, 0x01, 1, 0x11, 1, 0xFF, 0] none) _
    exampleStored.enc exampleStored.clusterPos exampleStored.rep exampleStored.nonZero) n x h
  simp [runOf] at hx
  rcases hx with rfl | rfl | rfl <;> decide

example : ∃ v, NonRes.new 4 [0x11, 1, 2, 0x01, 1, 0x11, 1, 0xFF, 0] none 10 = .ok v ∧ ∀ d ops, v.run32 d ops = v.run d ops :=
  ⟨_, rfl, C87_small_partial 4 _ none 10 (by decide) exNarrow rfl⟩

/-- A cluster of 4096 bytes at LCN 1, then 2^20 - 1 sparse clusters: 4 GiB. -/
theorem exFour (img : Bytes) (hi : img.length = 8192) : StoredAs 4096 img [0x11, 1, 1, 0x03, 0xFF, 0xFF, 0x0F, 0]
    [⟨1, some 1⟩, ⟨1048575, none⟩] where
  clusterPos := by decide
  enc := by
    refine .run 0 1 1 _ _ _ ?_ (.run _ 3 0 _ _ _ ?_ (.terminated _ []))
    all_goals simp [WidthsOk, FitsSigned]
  rep := by simp [Representable]
  nonZero := by simp [NonZero]
  inImage := by simp [InImage, hi]
  imgLt := by omega

/-- With a size of 4 GiB and 5 bytes a copy of it has 5 bytes. -/
example (img : Bytes) (hi : img.length = 8192) (d : Dev) (hd : d.Ok img) :=
  C87_copy_partial (exFour img hi) (by decide) none (U32 + 5) (by decide) [0, 0, 0] (by decide) d hd 6 (by decide)

/-- With a size of 4 GiB, a small read at byte 10 is not affected. -/
example (img : Bytes) (hi : img.length = 8192) (d : Dev) (hd : d.Ok img) :=
  C87_read_partial (exFour img hi) (by decide) none U32 10 (by decide) (by decide) [0, 0, 0] d hd

end NT
