import Verif.Model.Stream
import Verif.Lemmas.Dev
import Verif.Lemmas.DataRuns
import Verif.Lemmas.Seek

namespace NT

open Spec

theorem overwrite_append (buf b1 b2 : Bytes) (i : Nat) (h : i + b1.length ≤ buf.length) :
    overwrite (overwrite buf i b1) (i + b1.length) b2 = overwrite buf i (b1 ++ b2) := by
  unfold overwrite
  have hl : (buf.take i ++ b1).length = i + b1.length := by simp; omega
  have e1 : List.take (i + b1.length) (List.take i buf ++ b1 ++ List.drop (i + b1.length) buf) =
      List.take i buf ++ b1 := by
    rw [← hl, List.take_left]
  have e2 : List.drop (i + b1.length + b2.length)
      (List.take i buf ++ b1 ++ List.drop (i + b1.length) buf) =
      List.drop (i + (b1.length + b2.length)) buf := by
    rw [List.drop_append, hl, List.drop_eq_nil_of_le (by omega), List.nil_append, List.drop_drop]
    congr 1; omega
  rw [e1, e2, List.length_append]
  simp only [List.append_assoc]

theorem overwrite_slice (buf b : Bytes) (i k : Nat) (hb : b.length ≤ k) (hk : i + k ≤ buf.length) :
    overwrite buf i (overwrite ((buf.drop i).take k) 0 b) = overwrite buf i b := by
  have hl : ((buf.drop i).take k).length = k := by simp; omega
  have h1 : overwrite ((buf.drop i).take k) 0 b = b ++ ((buf.drop i).take k).drop b.length := by
    simp [overwrite]
  rw [h1]
  unfold overwrite
  simp only [List.append_assoc, List.length_append, List.length_drop, hl]
  congr 2
  have e : i + (b.length + (k - b.length)) = i + k := by omega
  rw [e, List.drop_take, List.drop_drop]
  have : List.drop (i + k) buf = List.drop (k - b.length) (List.drop (i + b.length) buf) := by
    rw [List.drop_drop]; congr 1; omega
  rw [this, List.take_append_drop]

/-- The bytes of a run from its current position on. -/
def runBytes (img : Bytes) (r : DataRun) : Bytes :=
  match r.position with
  | none => List.replicate (r.allocatedSize - r.streamPosition) 0
  | some p => (img.drop (p + r.streamPosition)).take (r.allocatedSize - r.streamPosition)

/-- The bytes of several runs. -/
def restBytes (img : Bytes) (rs : List DataRun) : Bytes := rs.flatMap (runBytes img)

/-- A run inside the image. -/
structure RunOk (img : Bytes) (r : DataRun) : Prop where
  le : r.streamPosition ≤ r.allocatedSize
  lt : r.allocatedSize < U64
  inside : ∀ p, r.position = some p → p + r.allocatedSize ≤ img.length
  placed : 0 < r.allocatedSize ∧ ∀ p, r.position = some p → 0 < p

theorem runBytes_length {img : Bytes} {r : DataRun} (h : RunOk img r) :
    (runBytes img r).length = r.allocatedSize - r.streamPosition := by
  unfold runBytes
  split
  · simp
  · rename_i p hp
    have := h.inside p hp
    have := h.le
    simp; omega

theorem runBytes_advance (img : Bytes) (r : DataRun) (n : Nat) :
    runBytes img { r with streamPosition := r.streamPosition + n } = (runBytes img r).drop n := by
  unfold runBytes
  dsimp only
  split
  · simp; omega
  · rename_i p hp
    rw [List.drop_take, List.drop_drop]
    congr 1
    · omega
    · congr 1; omega

theorem runBytes_end (img : Bytes) (r : DataRun) (h : r.allocatedSize ≤ r.streamPosition) :
    runBytes img r = [] := by
  unfold runBytes
  have : r.allocatedSize - r.streamPosition = 0 := by omega
  split <;> simp [this]

theorem restBytes_cons (img : Bytes) (r : DataRun) (rs : List DataRun) :
    restBytes img (r :: rs) = runBytes img r ++ restBytes img rs := by
  simp [restBytes]

@[simp] theorem restBytes_nil (img : Bytes) : restBytes img [] = [] := rfl

/-- The address on the device of the byte with index `k` in the runs; `none` if it is in a sparse run
or behind the last run. -/
def addrAt : List DataRun → Nat → Option Nat
  | [], _ => none
  | r :: rs, k =>
    if k < r.allocatedSize - r.streamPosition then r.position.map (· + r.streamPosition + k)
    else addrAt rs (k - (r.allocatedSize - r.streamPosition))

/-- How many of the runs that are stored on the device (not sparse) hold one of the `n` bytes that
begin with the one with index `k`. -/
def sharedRuns : List DataRun → Nat → Nat → Nat
  | [], _, _ => 0
  | r :: rs, k, n =>
    (if r.position.isSome ∧ k < r.allocatedSize - r.streamPosition ∧ 0 < n then 1 else 0) +
      sharedRuns rs (k - (r.allocatedSize - r.streamPosition))
        (n - (r.allocatedSize - r.streamPosition - k))

/-- The runs `rs'` are the runs `rs` without the first `n` bytes. -/
structure Shift (img : Bytes) (rs' rs : List DataRun) (n : Nat) : Prop where
  bytes : restBytes img rs' = (restBytes img rs).drop n
  addr : ∀ k, addrAt rs' k = addrAt rs (n + k)
  runs : ∀ k m, sharedRuns rs' k m = sharedRuns rs (n + k) m

theorem Shift.refl (img : Bytes) (rs : List DataRun) : Shift img rs rs 0 :=
  ⟨rfl, fun k => by simp, fun k m => by simp⟩

theorem Shift.trans {img : Bytes} {a b c : List DataRun} {n m : Nat} (h1 : Shift img a b n)
    (h2 : Shift img b c m) : Shift img a c (m + n) :=
  ⟨by rw [h1.bytes, h2.bytes, List.drop_drop], fun k => by rw [h1.addr, h2.addr, Nat.add_assoc],
    fun k _ => by rw [h1.runs, h2.runs, Nat.add_assoc]⟩

theorem Shift.nil (img : Bytes) (n : Nat) : Shift img [] [] n :=
  ⟨by simp, fun k => by simp [addrAt], fun k m => by simp [sharedRuns]⟩

theorem Shift.skip {img : Bytes} {r : DataRun} (rs : List DataRun) (h : RunOk img r) :
    Shift img rs (r :: rs) (r.allocatedSize - r.streamPosition) := by
  refine ⟨?_, fun k => ?_, fun k m => ?_⟩
  · rw [restBytes_cons, List.drop_append, runBytes_length h,
      List.drop_eq_nil_of_le (by rw [runBytes_length h]; omega)]
    simp
  · simp only [addrAt]
    rw [if_neg (by omega)]
    congr 1; omega
  · simp only [sharedRuns]
    rw [if_neg (by omega), Nat.zero_add]
    congr 1 <;> omega

theorem Shift.skipDone {img : Bytes} {r : DataRun} (rs : List DataRun)
    (h : r.allocatedSize ≤ r.streamPosition) : Shift img rs (r :: rs) 0 := by
  refine ⟨?_, fun k => ?_, fun k m => ?_⟩
  · rw [restBytes_cons, runBytes_end _ _ h]; simp
  · simp only [addrAt]
    rw [if_neg (by omega)]
    congr 1; omega
  · simp only [sharedRuns]
    rw [if_neg (by omega), Nat.zero_add]
    congr 1 <;> omega

theorem Shift.advance {img : Bytes} {r : DataRun} (rs : List DataRun) (n : Nat) (h : RunOk img r)
    (hn : n ≤ r.allocatedSize - r.streamPosition) :
    Shift img ({ r with streamPosition := r.streamPosition + n } :: rs) (r :: rs) n := by
  refine ⟨?_, fun k => ?_, fun k m => ?_⟩
  · rw [restBytes_cons, restBytes_cons, List.drop_append_of_le_length (by rw [runBytes_length h]; omega),
      runBytes_advance]
  · simp only [addrAt]
    by_cases hk : n + k < r.allocatedSize - r.streamPosition
    · rw [if_pos hk, if_pos (by omega)]
      congr 1; funext x; omega
    · rw [if_neg hk, if_neg (by omega)]
      congr 1; omega
  · simp only [sharedRuns]
    have h1 : (k < r.allocatedSize - (r.streamPosition + n)) ↔
        n + k < r.allocatedSize - r.streamPosition := by omega
    have h2 : k - (r.allocatedSize - (r.streamPosition + n)) =
        n + k - (r.allocatedSize - r.streamPosition) := by omega
    have h3 : r.allocatedSize - (r.streamPosition + n) - k =
        r.allocatedSize - r.streamPosition - (n + k) := by omega
    rw [h2, h3]
    simp only [h1]

/-- Reading from a run inside the image of a device without failures: at least one byte, and the
right bytes. -/
theorem DataRun.read_ok (r : DataRun) (buf : Bytes) (d : Dev) (hd : d.NoFail)
    (hok : RunOk d.img r) (himg : d.img.length < U64) (hlt : r.streamPosition < r.allocatedSize)
    (hbuf : 0 < buf.length) :
    ∃ n d', r.read buf d = (.ok n, { r with streamPosition := r.streamPosition + n },
        overwrite buf 0 ((runBytes d.img r).take n), d') ∧
      0 < n ∧ n ≤ buf.length ∧ n ≤ r.allocatedSize - r.streamPosition ∧
      d'.img = d.img ∧ d'.NoFail := by
  unfold DataRun.read
  rw [if_neg (by unfold DataRun.remainingLen; omega)]
  dsimp only [DataRun.remainingLen]
  cases hp : r.position with
  | none =>
    refine ⟨min buf.length (r.allocatedSize - r.streamPosition), d, ?_, by omega, by omega, by omega,
      rfl, hd⟩
    have : (runBytes d.img r).take (min buf.length (r.allocatedSize - r.streamPosition)) =
        List.replicate (min buf.length (r.allocatedSize - r.streamPosition)) 0 := by
      unfold runBytes; rw [hp]; simp [List.take_replicate]
    rw [this]
  | some p =>
    have hin := hok.inside p hp
    dsimp only
    rw [if_pos (by omega)]
    obtain ⟨d1, e1, i1, p1, n1⟩ := Dev.seekStart_ok (p + r.streamPosition) d hd
    rw [e1]
    dsimp only
    obtain ⟨k, d2, e2, hk, hk0, i2, p2, n2, _⟩ :=
      Dev.read_ok (min buf.length (r.allocatedSize - r.streamPosition)) d1 n1
    rw [e2]
    dsimp only
    rw [i1, p1]
    have hlen : ((d.img.drop (p + r.streamPosition)).take k).length = k := by
      simp; omega
    have hkp := hk0 (by omega)
    refine ⟨k, d2, ?_, hkp, by omega, by omega, by rw [i2, i1], n2⟩
    have : (runBytes d.img r).take k = (d.img.drop (p + r.streamPosition)).take k := by
      unfold runBytes; rw [hp]
      dsimp only
      rw [List.take_take]
      congr 1; omega
    rw [this, hlen]

theorem readDataRun_skip (s : StreamState) (buf : Bytes) (br : Nat) (d : Dev)
    (h : ∀ r, s.run = some r → r.allocatedSize ≤ r.streamPosition ∨ s.dataSize ≤ s.streamPosition) :
    s.readDataRun buf br d = (.ok false, s, buf, br, d) := by
  unfold StreamState.readDataRun
  cases hr : s.run with
  | none => rfl
  | some r =>
    dsimp only
    rcases h r hr with h | h
    · rw [if_pos h]
    · split
      · rfl
      · rw [if_pos (by omega)]

theorem readDataRun_read (s : StreamState) (buf : Bytes) (br : Nat) (d : Dev) (r : DataRun)
    (hd : d.NoFail) (himg : d.img.length < U64) (hr : s.run = some r) (hok : RunOk d.img r)
    (hlt : r.streamPosition < r.allocatedSize) (hsize : s.streamPosition < s.dataSize)
    (hbr : br < buf.length) :
    ∃ n d', s.readDataRun buf br d =
        (.ok true,
          { s with
            run := some { r with streamPosition := r.streamPosition + n }
            streamPosition := s.streamPosition + n },
          overwrite buf br ((runBytes d.img r).take n), br + n, d') ∧
      0 < n ∧ br + n ≤ buf.length ∧ n ≤ r.allocatedSize - r.streamPosition ∧
      s.streamPosition + n ≤ s.dataSize ∧ d'.img = d.img ∧ d'.NoFail := by
  unfold StreamState.readDataRun
  rw [hr]
  dsimp only
  rw [if_neg (by omega), if_neg (by omega)]
  have hk : br + min (buf.length - br) (s.dataSize - s.streamPosition) - br =
      min (buf.length - br) (s.dataSize - s.streamPosition) := by omega
  rw [hk]
  have hl : ((buf.drop br).take (min (buf.length - br) (s.dataSize - s.streamPosition))).length =
      min (buf.length - br) (s.dataSize - s.streamPosition) := by
    rw [List.length_take, List.length_drop]; omega
  obtain ⟨n, d', e, h1, h2, h3, h4, h5⟩ := DataRun.read_ok r
    ((buf.drop br).take (min (buf.length - br) (s.dataSize - s.streamPosition))) d hd hok himg hlt
    (by omega)
  rw [e]
  dsimp only
  rw [if_neg (by omega)]
  refine ⟨n, d', ?_, h1, by omega, h3, by omega, h4, h5⟩
  rw [overwrite_slice _ _ _ _ (by rw [List.length_take]; omega) (by omega)]

theorem nextDataRun_step (v : NonRes) (x : DataRun) (xs : List DataRun)
    (h : Yields v.runs (x :: xs)) :
    ∃ runs', v.nextDataRun =
      (.ok true, { v with runs := runs', st := { v.st with run := some x } }) ∧ Yields runs' xs := by
  cases h with
  | step h h' => exact ⟨_, by simp only [NonRes.nextDataRun, h], h'⟩

/-- An exhausted iterator stays exhausted. -/
theorem yields_nil_next {r r' : DataRuns} (h : r.next = (none, r')) : Yields r' [] := by
  have hle : r'.data.length ≤ r'.state.offset := by
    revert h
    unfold DataRuns.next
    split
    · rename_i hd; intro h; cases h; exact List.drop_eq_nil_iff.1 hd
    · split
      · intro h; cases h; exact Nat.le_refl _
      · repeat' split
        all_goals (intro h; cases h)
  have : r'.data.drop r'.state.offset = [] := List.drop_eq_nil_iff.2 hle
  exact .done (r' := r') (by simp [DataRuns.next, this])

theorem nextDataRun_done' (v : NonRes) (h : Yields v.runs []) :
    ∃ runs', v.nextDataRun = (.ok false, { v with runs := runs' }) ∧ Yields runs' [] := by
  cases h with
  | @done _ r' h => exact ⟨r', by simp only [NonRes.nextDataRun, h], yields_nil_next h⟩


/-- The runs still to come, starting with the current one. -/
abbrev pending (s : StreamState) (post : List DataRun) : List DataRun := s.run.toList ++ post

/-- The loop of `read`: it delivers exactly the next bytes. -/
theorem readLoop_ok (fuel : Nat) (v : NonRes) (buf : Bytes) (br : Nat) (d : Dev)
    (post : List DataRun) (hd : d.NoFail) (himg : d.img.length < U64)
    (hy : Yields v.runs post) (hcur : ∀ r, v.st.run = some r → RunOk d.img r)
    (hpost : ∀ r ∈ post, RunOk d.img r) (hbr : br ≤ buf.length)
    (hfuel : buf.length - br + post.length < fuel) :
    ∃ got v' post' d',
      got = (restBytes d.img (pending v.st post)).take
        (min (buf.length - br) (v.st.dataSize - v.st.streamPosition)) ∧
      NonRes.readLoop fuel v buf br d = (.ok (br + got.length), v', overwrite buf br got, d') ∧
      d'.img = d.img ∧ d'.NoFail ∧
      v' = { v with runs := v'.runs, st := { v.st with run := v'.st.run, streamPosition := v.st.streamPosition + got.length } } ∧
      Yields v'.runs post' ∧ (∀ r, v'.st.run = some r → RunOk d.img r) ∧
      (∀ r ∈ post', r ∈ post) ∧ post'.length ≤ post.length ∧
      (Shift d.img (pending v'.st post') (pending v.st post) got.length ∨
        v.st.dataSize ≤ v.st.streamPosition + got.length) := by
  induction fuel generalizing v buf br d post with
  | zero => omega
  | succ fuel ih =>
    unfold NonRes.readLoop
    by_cases hlt : br < buf.length
    case neg =>
      rw [if_neg hlt]
      have : min (buf.length - br) (v.st.dataSize - v.st.streamPosition) = 0 := by omega
      refine ⟨[], v, post, d, by rw [this, List.take_zero], ?_, rfl, hd, rfl, hy, hcur,
        fun _ h => h, Nat.le_refl _, .inl (Shift.refl _ _)⟩
      rw [overwrite_nil]; rfl
    rw [if_pos hlt]
    by_cases hskip : ∀ r, v.st.run = some r →
        r.allocatedSize ≤ r.streamPosition ∨ v.st.dataSize ≤ v.st.streamPosition
    · rw [readDataRun_skip _ _ _ _ hskip]
      dsimp only
      -- the current run contributes nothing
      have hpend : ∀ k, (restBytes d.img (pending v.st post)).take
            (min k (v.st.dataSize - v.st.streamPosition)) =
          (restBytes d.img post).take (min k (v.st.dataSize - v.st.streamPosition)) := by
        intro k
        cases hr : v.st.run with
        | none => simp [pending, hr]
        | some r =>
          rcases hskip r hr with h | h
          · simp [pending, hr, restBytes_cons, runBytes_end _ _ h]
          · have : min k (v.st.dataSize - v.st.streamPosition) = 0 := by omega
            rw [this, List.take_zero, List.take_zero]
      cases post with
      | nil =>
        obtain ⟨runs', e, hy'⟩ := nextDataRun_done' v hy
        rw [e]
        dsimp only
        refine ⟨[], { v with runs := runs' }, [], d, ?_, ?_, rfl, hd, rfl, hy', hcur, fun _ h => h,
          Nat.le_refl _, .inl (Shift.refl _ _)⟩
        · rw [hpend]; simp
        · rw [overwrite_nil]; rfl
      | cons x xs =>
        obtain ⟨runs', e, hy'⟩ := nextDataRun_step v x xs hy
        rw [e]
        dsimp only
        obtain ⟨got, v', post', d', h1, h2, h3, h4, h5, h6, h7, h8, h9, h10⟩ :=
          ih { v with runs := runs', st := { v.st with run := some x } } buf br d xs hd himg hy'
            (by intro r hr; injection hr with hr; subst hr; exact hpost _ (by simp))
            (fun r hr => hpost r (by simp [hr])) hbr (by simp at hfuel; omega)
        have hp : restBytes d.img (pending { v.st with run := some x } xs) =
            restBytes d.img (x :: xs) := by simp [pending]
        dsimp only at h1 h2 h5 h10
        rw [hp] at h1
        refine ⟨got, v', post', d', ?_, h2, h3, h4, h5, h6, h7, ?_, ?_, ?_⟩
        · rw [hpend, h1]
        · intro r hr; simp [h8 r hr]
        · simp; omega
        · rcases h10 with h | h
          · cases hr : v.st.run with
            | none => left; simpa [pending, hr] using h
            | some r =>
              rcases hskip r hr with hh | hh
              · left
                have := h.trans (Shift.skipDone (img := d.img) (x :: xs) hh)
                simpa [pending, hr] using this
              · right; omega
          · exact .inr h
    · -- the current run is read
      have hr : ∃ r, v.st.run = some r ∧ r.streamPosition < r.allocatedSize ∧
          v.st.streamPosition < v.st.dataSize := by
        cases hr : v.st.run with
        | none => exact absurd (fun r h => by rw [hr] at h; cases h) hskip
        | some r =>
          refine ⟨r, rfl, ?_⟩
          by_cases hh : r.allocatedSize ≤ r.streamPosition ∨ v.st.dataSize ≤ v.st.streamPosition
          · exact absurd (fun r' h => by rw [hr] at h; injection h with h; subst h; exact hh) hskip
          · omega
      obtain ⟨r, hr, hlt2, hsz⟩ := hr
      have hok := hcur r hr
      obtain ⟨n, d1, e, h1, h2, h3, h4, h5, h6⟩ :=
        readDataRun_read v.st buf br d r hd himg hr hok hlt2 hsz hlt
      rw [e]
      dsimp only
      have hbl : ((runBytes d.img r).take n).length = n := by
        rw [List.length_take, runBytes_length hok]; omega
      have hol : (overwrite buf br ((runBytes d.img r).take n)).length = buf.length :=
        overwrite_length (by omega)
      obtain ⟨got, v', post', d', g1, g2, g3, g4, g5, g6, g7, g8, g9, g10⟩ :=
        ih { v with st := { v.st with
              run := some { r with streamPosition := r.streamPosition + n }
              streamPosition := v.st.streamPosition + n } }
          (overwrite buf br ((runBytes d.img r).take n)) (br + n) d1 post h6 (by rw [h5]; exact himg) hy
          (by
            intro r' hr'; injection hr' with hr'; subst hr'
            rw [h5]
            exact ⟨by have := hok.le; dsimp only; omega, hok.lt, hok.inside, hok.placed⟩)
          (by rw [h5]; exact hpost) (by rw [hol]; exact h2) (by rw [hol]; omega)
      dsimp only at g1 g2 g5 g10
      rw [h5] at g1 g3 g7 g10
      have hp : restBytes d.img (pending v.st post) = runBytes d.img r ++ restBytes d.img post := by
        simp [pending, hr, restBytes_cons]
      have hp' : restBytes d.img (pending { v.st with
              run := some { r with streamPosition := r.streamPosition + n }
              streamPosition := v.st.streamPosition + n } post) =
          (restBytes d.img (pending v.st post)).drop n := by
        rw [hp, List.drop_append_of_le_length (by rw [runBytes_length hok]; omega)]
        simp [pending, restBytes_cons, runBytes_advance]
      rw [hp', hol] at g1
      have ht : (runBytes d.img r).take n = (restBytes d.img (pending v.st post)).take n := by
        rw [hp, List.take_append_of_le_length (by rw [runBytes_length hok]; omega)]
      refine ⟨(runBytes d.img r).take n ++ got, v', post', d', ?_, ?_, g3, g4, ?_, g6, g7, g8, g9, ?_⟩
      · rw [ht, g1, ← List.take_add]
        congr 1; omega
      · rw [g2, List.length_append, hbl]
        have := overwrite_append buf ((runBytes d.img r).take n) got br (by omega)
        rw [hbl] at this
        rw [this]
        congr 2
        omega
      · rw [g5, List.length_append, hbl]
        simp only [Nat.add_assoc]
      · rw [List.length_append, hbl]
        rcases g10 with h | h
        · left
          have := h.trans (Shift.advance (img := d.img) post n hok h3)
          simpa [pending, hr] using this
        · right; omega


theorem seekDataRun_skip (s : StreamState) (pos : SeekFrom) (left : Nat)
    (h : ∀ r, s.run = some r → r.allocatedSize - r.streamPosition ≤ left) :
    s.seekDataRun pos left = (.ok false, s,
      left - match s.run with | none => 0 | some r => r.allocatedSize - r.streamPosition) := by
  unfold StreamState.seekDataRun
  cases hr : s.run with
  | none => rfl
  | some r =>
    dsimp only
    have := h r hr
    rw [if_neg (by unfold DataRun.remainingLen; omega)]

/-- The way `seek` calls `seek_data_run`: `Start` only on runs not read from yet. -/
def SeekMode (pos : SeekFrom) (s : StreamState) : Prop :=
  match pos with
  | .start _ => ∀ r, s.run = some r → r.streamPosition = 0
  | .current _ => True
  | .end_ _ => False

theorem seekDataRun_final (s : StreamState) (pos : SeekFrom) (left : Nat) (r : DataRun)
    (hr : s.run = some r) (hlt : left < r.allocatedSize - r.streamPosition)
    (hm : SeekMode pos s) (hU : r.allocatedSize < U64)
    (hI : ∀ n, pos = .current n → left < I63) :
    s.seekDataRun pos left = (.ok true,
      { s with run := some { r with streamPosition := r.streamPosition + left } }, left) := by
  unfold StreamState.seekDataRun
  rw [hr]
  dsimp only
  rw [if_pos hlt]
  cases pos with
  | start n =>
    have h0 := hm r hr
    dsimp only [DataRun.seek, seekContiguous]
    simp [h0]
  | current n =>
    have h1 := hI n rfl
    have h2 : toI64 left = (left : Int) := by simp only [toI64, if_pos h1]
    dsimp only [DataRun.seek, seekContiguous]
    rw [h2, if_pos (by omega)]
    have : checkedAddU64 r.streamPosition ((left : Int)).toNat = some (r.streamPosition + left) := by
      have e : ((left : Int)).toNat = left := by omega
      rw [e]
      simp only [checkedAddU64, if_pos (by omega : r.streamPosition + left < U64)]
    rw [this]
  | end_ n => exact hm.elim

/-- The loop of `seek`: it skips exactly the requested number of bytes. -/
theorem seekLoop_ok (img : Bytes) (fuel : Nat) (v : NonRes) (pos : SeekFrom) (left : Nat)
    (post : List DataRun)
    (hy : Yields v.runs post) (hcur : ∀ r, v.st.run = some r → RunOk img r)
    (hpost : ∀ r ∈ post, RunOk img r ∧ r.streamPosition = 0)
    (hm : SeekMode pos v.st) (hI : ∀ n, pos = .current n → left < I63)
    (hfuel : post.length < fuel) :
    ∃ v' post', NonRes.seekLoop fuel v pos left = (.ok (), v') ∧
      v' = { v with runs := v'.runs, st := { v.st with run := v'.st.run } } ∧
      Yields v'.runs post' ∧ (∀ r, v'.st.run = some r → RunOk img r) ∧
      (∀ r ∈ post', r ∈ post) ∧ post'.length ≤ post.length ∧
      Shift img (pending v'.st post') (pending v.st post) left := by
  induction fuel generalizing v left post with
  | zero => omega
  | succ fuel ih =>
    unfold NonRes.seekLoop
    by_cases hleft : left > 0
    case neg =>
      rw [if_neg hleft]
      have : left = 0 := by omega
      subst this
      exact ⟨v, post, rfl, rfl, hy, hcur, fun _ h => h, Nat.le_refl _, Shift.refl _ _⟩
    rw [if_pos hleft]
    by_cases hskip : ∀ r, v.st.run = some r → r.allocatedSize - r.streamPosition ≤ left
    · rw [seekDataRun_skip _ _ _ hskip]
      dsimp only
      obtain ⟨k, hk⟩ : ∃ k, k = (match v.st.run with
        | none => 0 | some r => r.allocatedSize - r.streamPosition) := ⟨_, rfl⟩
      rw [← hk]
      have hpend : Shift img post (pending v.st post) k ∧ k ≤ left := by
        cases hr : v.st.run with
        | none => rw [hr] at hk; subst hk; exact ⟨by simpa [pending, hr] using Shift.refl img post, by simp⟩
        | some r =>
          rw [hr] at hk
          dsimp only at hk
          rw [hk]
          exact ⟨by simpa [pending, hr] using Shift.skip post (hcur r hr), hskip r hr⟩
      cases post with
      | nil =>
        obtain ⟨runs', e, hy'⟩ := nextDataRun_done' v hy
        rw [e]
        dsimp only
        refine ⟨_, [], rfl, rfl, hy', (by intro r hr; cases hr), fun _ h => h, Nat.le_refl _, ?_⟩
        have := (Shift.nil img (left - k)).trans hpend.1
        have e : k + (left - k) = left := by have := hpend.2; omega
        rw [e] at this
        simpa [pending] using this
      | cons x xs =>
        obtain ⟨runs', e, hy'⟩ := nextDataRun_step v x xs hy
        rw [e]
        dsimp only
        obtain ⟨v', post', h1, h2, h3, h4, h5, h6, h7⟩ :=
          ih { v with runs := runs', st := { v.st with run := some x } } (left - k) xs hy'
            (by intro r hr; injection hr with hr; subst hr; exact (hpost _ (by simp)).1)
            (fun r hr => hpost r (by simp [hr]))
            (by
              cases pos with
              | start n =>
                intro r hr; injection hr with hr; subst hr; exact (hpost _ (by simp)).2
              | current n => trivial
              | end_ n => exact hm.elim)
            (by intro n hn; have := hI n hn; omega) (by simp at hfuel; omega)
        refine ⟨v', post', h1, h2, h3, h4, by intro r hr; simp [h5 r hr], by simp; omega, ?_⟩
        have := h7.trans (show Shift img (pending { v.st with run := some x } xs) _ k by
          simpa [pending] using hpend.1)
        have e : k + (left - k) = left := by have := hpend.2; omega
        rwa [e] at this
    · have hr : ∃ r, v.st.run = some r ∧ left < r.allocatedSize - r.streamPosition := by
        cases hr : v.st.run with
        | none => exact absurd (fun r h => by rw [hr] at h; cases h) hskip
        | some r =>
          refine ⟨r, rfl, ?_⟩
          by_cases hh : r.allocatedSize - r.streamPosition ≤ left
          · exact absurd (fun r' h => by rw [hr] at h; injection h with h; subst h; exact hh) hskip
          · omega
      obtain ⟨r, hr, hlt⟩ := hr
      have hok := hcur r hr
      rw [seekDataRun_final _ _ _ r hr hlt hm hok.lt hI]
      dsimp only
      refine ⟨_, post, rfl, rfl, hy, ?_, fun _ h => h, Nat.le_refl _, ?_⟩
      · intro r' hr'; injection hr' with hr'; subst hr'
        exact ⟨by have := hok.le; dsimp only; omega, hok.lt, hok.inside, hok.placed⟩
      · have := Shift.advance post left hok (by omega)
        simpa [pending, hr] using this

end NT
