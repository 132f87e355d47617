import Verif.Props.C43_Truncated

/-! C43, continued: the exact behaviour of a value over a device that holds only part of its runs. -/

namespace NT

open Spec

namespace Spec

/-- The bytes of a run over a device with image `img`; `none` if the device has no such byte. -/
def Extent.cells (cs : Nat) (img : Bytes) (e : Extent) : List (Option UInt8) :=
  match e.lcn with
  | none => List.replicate (e.count * cs) (some 0)
  | some l => (List.range (e.count * cs)).map (fun i => img[l * cs + i]?)

/-- The bytes of all runs, missing ones included. -/
def cells (cs : Nat) (img : Bytes) (es : List Extent) : List (Option UInt8) :=
  es.flatMap (Extent.cells cs img)

/-- The first `n` bytes that are not missing, and what comes behind the last of them. -/
def takeCells : Nat → List (Option UInt8) → Bytes × List (Option UInt8)
  | 0, cs => ([], cs)
  | _ + 1, [] => ([], [])
  | n + 1, none :: cs => takeCells (n + 1) cs
  | n + 1, some b :: cs => (b :: (takeCells n cs).1, (takeCells n cs).2)

/-- A file with missing bytes that are passed over without moving the position. `rest` is what comes
next; it is not the part behind `pos` any more after missing bytes have been passed over. -/
structure Sunk where
  all : List (Option UInt8)
  len : Nat
  pos : Nat
  rest : List (Option UInt8)

/-- A read delivers the next bytes that exist. A seek forward by less than 2^63 skips bytes from the
present place on; any other seek starts from the beginning. -/
def Sunk.step (f : Sunk) : Op → Out × Sunk
  | .read buf =>
    let (got, rest) := takeCells (min buf.length (f.len - f.pos)) f.rest
    ({ result := .ok got.length, buf := got ++ buf.drop got.length },
      { f with pos := f.pos + got.length, rest := rest })
  | .seek s =>
    if validTarget (seekTarget f.pos f.len s) then
      let t := (seekTarget f.pos f.len s).toNat
      ({ result := .ok t, buf := [] },
        { f with
          pos := t
          rest := if f.pos ≤ t ∧ t - f.pos < I63 then f.rest.drop (t - f.pos) else f.all.drop t })
    else ({ result := .err (.io .invalidInput), buf := [] }, f)

/-- A whole history of operations. -/
def Sunk.run (f : Sunk) : List Op → List Out × Sunk
  | [] => ([], f)
  | op :: ops => (((f.step op).1 :: ((f.step op).2.run ops).1), ((f.step op).2.run ops).2)

end Spec

/-! ## Missing bytes -/

/-- Equal up to missing bytes at the end. -/
def Like (a b : List (Option UInt8)) : Prop := ∀ i : Nat, a[i]?.join = b[i]?.join

theorem Like.refl (a : List (Option UInt8)) : Like a a := fun _ => rfl

theorem Like.symm {a b : List (Option UInt8)} (h : Like a b) : Like b a := fun i => (h i).symm

theorem Like.drop {a b : List (Option UInt8)} (h : Like a b) (n : Nat) : Like (a.drop n) (b.drop n) := by
  intro i
  rw [List.getElem?_drop, List.getElem?_drop]
  exact h _

theorem Like.tail {x y : Option UInt8} {a b : List (Option UInt8)} (h : Like (x :: a) (y :: b)) :
    Like a b := fun i => by simpa using h (i + 1)

theorem takeCells_zero (c : List (Option UInt8)) : takeCells 0 c = ([], c) := by
  cases c <;> rfl

theorem takeCells_nil (n : Nat) : takeCells n [] = ([], []) := by cases n <;> rfl

theorem takeCells_some (n : Nat) (b : Bytes) (c : List (Option UInt8)) (h : b.length ≤ n) :
    takeCells n (b.map some ++ c) =
      (b ++ (takeCells (n - b.length) c).1, (takeCells (n - b.length) c).2) := by
  induction b generalizing n with
  | nil => rfl
  | cons x b ih =>
    rw [List.length_cons] at h
    obtain ⟨m, rfl⟩ : ∃ m, n = m + 1 := ⟨n - 1, by omega⟩
    simp only [List.map_cons, List.cons_append, takeCells, List.length_cons, Nat.add_sub_add_right]
    rw [ih m (by omega)]

theorem takeCells_none (n : Nat) (a c : List (Option UInt8)) (h : ∀ x ∈ a, x = none) (hn : 0 < n) :
    takeCells n (a ++ c) = takeCells n c := by
  obtain ⟨m, rfl⟩ : ∃ m, n = m + 1 := ⟨n - 1, by omega⟩
  induction a with
  | nil => rfl
  | cons x a ih =>
    have hx : x = none := h x (by simp)
    subst hx
    simp only [List.cons_append, takeCells]
    exact ih (fun y hy => h y (by simp [hy]))

theorem Like.nil_iff {a : List (Option UInt8)} : Like a [] ↔ ∀ x ∈ a, x = none := by
  constructor
  · intro h x hx
    obtain ⟨i, hi⟩ := List.mem_iff_getElem?.1 hx
    have := h i
    rw [hi] at this
    simpa using this
  · intro h i
    cases hi : a[i]? with
    | none => rfl
    | some x => rw [h x (List.mem_of_getElem? hi)]; rfl

theorem takeCells_like {a b : List (Option UInt8)} (h : Like a b) (n : Nat) :
    (takeCells n a).1 = (takeCells n b).1 ∧ Like (takeCells n a).2 (takeCells n b).2 := by
  induction a generalizing b n with
  | nil =>
    have hb := Like.nil_iff.1 h.symm
    rcases Nat.eq_zero_or_pos n with rfl | hn
    · rw [takeCells_zero, takeCells_zero]; exact ⟨rfl, h⟩
    · have := takeCells_none n b [] hb hn
      rw [List.append_nil] at this
      rw [this]; exact ⟨rfl, .refl _⟩
  | cons x a ih =>
    rcases Nat.eq_zero_or_pos n with rfl | hn
    · rw [takeCells_zero, takeCells_zero]; exact ⟨rfl, h⟩
    obtain ⟨m, rfl⟩ : ∃ m, n = m + 1 := ⟨n - 1, by omega⟩
    cases b with
    | nil =>
      have ha := Like.nil_iff.1 h
      have := takeCells_none (m + 1) (x :: a) [] ha hn
      rw [List.append_nil] at this
      rw [this]; exact ⟨rfl, .refl _⟩
    | cons y b =>
      have h0 : x = y := by simpa using h 0
      subst h0
      cases x with
      | none => simp only [takeCells]; exact ih h.tail (m + 1)
      | some z =>
        obtain ⟨g1, g2⟩ := ih h.tail m
        simp only [takeCells]
        exact ⟨by rw [g1], g2⟩

theorem takeCells_length (n : Nat) (c : List (Option UInt8)) : (takeCells n c).1.length ≤ n := by
  induction c generalizing n with
  | nil => rw [takeCells_nil]; simp
  | cons x c ih =>
    cases n with
    | zero => simp [takeCells]
    | succ n =>
      cases x with
      | none => simp only [takeCells]; exact ih (n + 1)
      | some b => simp only [takeCells, List.length_cons]; have := ih n; omega

/-! ## Runs -/

/-- The bytes of a run from its current position on. -/
def runCells (img : Bytes) (r : DataRun) : List (Option UInt8) :=
  match r.position with
  | none => List.replicate (r.allocatedSize - r.streamPosition) (some 0)
  | some p => (List.range (r.allocatedSize - r.streamPosition)).map
      (fun i => img[p + r.streamPosition + i]?)

def restCells (img : Bytes) (rs : List DataRun) : List (Option UInt8) := rs.flatMap (runCells img)

/-- A run whose addresses have 64 bits. -/
structure Fine (r : DataRun) : Prop where
  le : r.streamPosition ≤ r.allocatedSize
  lt : r.allocatedSize < U64
  addr : ∀ p, r.position = some p → p + r.allocatedSize < U64

theorem runCells_length (img : Bytes) (r : DataRun) :
    (runCells img r).length = r.allocatedSize - r.streamPosition := by
  unfold runCells
  split <;> simp

theorem runCells_advance (img : Bytes) (r : DataRun) (n : Nat)
    (hn : n ≤ r.allocatedSize - r.streamPosition) :
    runCells img { r with streamPosition := r.streamPosition + n } = (runCells img r).drop n := by
  have e : r.allocatedSize - (r.streamPosition + n) = r.allocatedSize - r.streamPosition - n := by omega
  unfold runCells
  dsimp only
  split
  · rw [List.drop_replicate, e]
  · rename_i p hp
    rw [← List.map_drop]
    apply List.ext_getElem?
    intro i
    rw [List.getElem?_map, List.getElem?_map, List.getElem?_drop]
    by_cases hi : i < r.allocatedSize - (r.streamPosition + n)
    · rw [List.getElem?_range hi, List.getElem?_range (by omega), Option.map_some, Option.map_some]
      congr 2; omega
    · rw [List.getElem?_eq_none (by simp; omega), List.getElem?_eq_none (by simp; omega)]
      rfl

theorem runCells_end (img : Bytes) (r : DataRun) (h : r.allocatedSize ≤ r.streamPosition) :
    runCells img r = [] := by
  apply List.eq_nil_of_length_eq_zero
  rw [runCells_length]; omega

theorem restCells_cons (img : Bytes) (r : DataRun) (rs : List DataRun) :
    restCells img (r :: rs) = runCells img r ++ restCells img rs := by simp [restCells]

@[simp] theorem restCells_nil (img : Bytes) : restCells img [] = [] := rfl

/-- Reading from a run over a device without failures, inside the image or not. -/
theorem DataRun.read_cells (r : DataRun) (buf : Bytes) (d : Dev) (hd : d.NoFail) (hok : Fine r)
    (hlt : r.streamPosition < r.allocatedSize) (hbuf : 0 < buf.length) :
    ∃ b d', r.read buf d = (.ok b.length, { r with streamPosition := r.streamPosition + b.length },
        overwrite buf 0 b, d') ∧ b.length ≤ buf.length ∧
      b.length ≤ r.allocatedSize - r.streamPosition ∧ d'.img = d.img ∧ d'.NoFail ∧
      runCells d.img r = b.map some ++ (runCells d.img r).drop b.length ∧
      (b = [] → ∀ x ∈ runCells d.img r, x = none) := by
  unfold DataRun.read
  rw [if_neg (by unfold DataRun.remainingLen; omega)]
  dsimp only [DataRun.remainingLen]
  cases hp : r.position with
  | none =>
    refine ⟨List.replicate (min buf.length (r.allocatedSize - r.streamPosition)) 0, d, ?_, ?_, ?_, rfl,
      hd, ?_, ?_⟩
    · simp only [List.length_replicate]
    · rw [List.length_replicate]; omega
    · rw [List.length_replicate]; omega
    · unfold runCells
      rw [hp]
      dsimp only
      rw [List.length_replicate, List.map_replicate, List.drop_replicate, List.replicate_append_replicate]
      congr 1; omega
    · intro h
      have := congrArg List.length h
      rw [List.length_replicate, List.length_nil] at this
      omega
  | some p =>
    have hin := hok.addr p hp
    dsimp only
    rw [if_pos (by omega)]
    obtain ⟨d1, e1, i1, p1, n1⟩ := Dev.seekStart_ok (p + r.streamPosition) d hd
    rw [e1]
    dsimp only
    obtain ⟨k, d2, e2, hk, hk0, i2, p2, n2, _⟩ :=
      Dev.read_ok (min buf.length (r.allocatedSize - r.streamPosition)) d1 n1
    rw [e2]
    dsimp only
    rw [i1, p1]
    have hkp := hk0 (by omega)
    have hlen : ((d.img.drop (p + r.streamPosition)).take k).length ≤ k := by
      rw [List.length_take]; omega
    refine ⟨_, d2, rfl, by omega, by omega, by rw [i2, i1], n2, ?_, ?_⟩
    · obtain ⟨b, hb⟩ : ∃ b, b = (d.img.drop (p + r.streamPosition)).take k := ⟨_, rfl⟩
      rw [← hb] at hlen ⊢
      have hpre : b.map some = (runCells d.img r).take b.length := by
        unfold runCells
        rw [hp]
        dsimp only
        apply List.ext_getElem?
        intro i
        rw [List.getElem?_map, List.getElem?_take]
        by_cases hi : i < b.length
        · rw [if_pos hi, List.getElem?_map, List.getElem?_range (by omega), Option.map_some,
            List.getElem?_eq_getElem hi, Option.map_some]
          congr 1
          rw [← List.getElem?_eq_getElem hi, hb, List.getElem?_take, if_pos (by omega), List.getElem?_drop]
        · rw [if_neg hi, List.getElem?_eq_none (by omega)]
          rfl
      rw [hpre, List.take_append_drop]
    · intro h
      have hl := congrArg List.length h
      rw [List.length_take, List.length_drop, List.length_nil] at hl
      unfold runCells
      rw [hp]
      intro x hx
      obtain ⟨i, _, rfl⟩ := List.mem_map.1 hx
      exact List.getElem?_eq_none (by omega)

theorem readDataRun_cells (s : StreamState) (buf : Bytes) (br : Nat) (d : Dev) (r : DataRun)
    (hd : d.NoFail) (hr : s.run = some r) (hok : Fine r)
    (hlt : r.streamPosition < r.allocatedSize) (hsize : s.streamPosition < s.dataSize)
    (hbr : br < buf.length) :
    ∃ b d', s.readDataRun buf br d =
        (.ok (decide (0 < b.length)),
          { s with
            run := some { r with streamPosition := r.streamPosition + b.length }
            streamPosition := s.streamPosition + b.length },
          overwrite buf br b, br + b.length, d') ∧
      br + b.length ≤ buf.length ∧ b.length ≤ r.allocatedSize - r.streamPosition ∧
      s.streamPosition + b.length ≤ s.dataSize ∧ d'.img = d.img ∧ d'.NoFail ∧
      runCells d.img r = b.map some ++ (runCells d.img r).drop b.length ∧
      (b = [] → ∀ x ∈ runCells d.img r, x = none) := by
  unfold StreamState.readDataRun
  rw [hr]
  dsimp only
  rw [if_neg (by omega), if_neg (by omega)]
  have hk : br + min (buf.length - br) (s.dataSize - s.streamPosition) - br =
      min (buf.length - br) (s.dataSize - s.streamPosition) := by omega
  rw [hk]
  have hl : ((buf.drop br).take (min (buf.length - br) (s.dataSize - s.streamPosition))).length =
      min (buf.length - br) (s.dataSize - s.streamPosition) := by
    rw [List.length_take, List.length_drop]; omega
  obtain ⟨b, d', e, h1, h2, h3, h4, h5, h6⟩ := DataRun.read_cells r
    ((buf.drop br).take (min (buf.length - br) (s.dataSize - s.streamPosition))) d hd hok hlt
    (by omega)
  rw [e]
  dsimp only
  rw [overwrite_slice _ _ _ _ (by omega) (by omega)]
  refine ⟨b, d', ?_, by omega, h2, by omega, h3, h4, h5, h6⟩
  by_cases hb : b.length = 0
  · rw [if_pos hb]
    simp [hb]
  · rw [if_neg hb]
    have : 0 < b.length := by omega
    simp [this]

theorem readLoop_cells (fuel : Nat) (v : NonRes) (buf : Bytes) (br : Nat) (d : Dev)
    (post : List DataRun) (hd : d.NoFail)
    (hy : Yields v.runs post) (hcur : ∀ r, v.st.run = some r → Fine r)
    (hpost : ∀ r ∈ post, Fine r) (hbr : br ≤ buf.length)
    (hfuel : buf.length - br + post.length < fuel) :
    ∃ got rest v' post' d',
      takeCells (min (buf.length - br) (v.st.dataSize - v.st.streamPosition))
        (restCells d.img (pending v.st post)) = (got, rest) ∧
      NonRes.readLoop fuel v buf br d = (.ok (br + got.length), v', overwrite buf br got, d') ∧
      d'.img = d.img ∧ d'.NoFail ∧
      v' = { v with runs := v'.runs, st := { v.st with run := v'.st.run, streamPosition := v.st.streamPosition + got.length } } ∧
      Yields v'.runs post' ∧ (∀ r, v'.st.run = some r → Fine r) ∧
      (∀ r ∈ post', r ∈ post) ∧ post'.length ≤ post.length ∧
      (Like (restCells d.img (pending v'.st post')) rest ∨
        v.st.dataSize ≤ v.st.streamPosition + got.length) := by
  induction fuel generalizing v buf br d post with
  | zero => omega
  | succ fuel ih =>
    unfold NonRes.readLoop
    by_cases hlt : br < buf.length
    case neg =>
      rw [if_neg hlt]
      have : min (buf.length - br) (v.st.dataSize - v.st.streamPosition) = 0 := by omega
      refine ⟨[], _, v, post, d, by rw [this, takeCells_zero], ?_, rfl, hd, rfl, hy, hcur,
        fun _ h => h, Nat.le_refl _, .inl (Like.refl _)⟩
      rw [overwrite_nil]; rfl
    rw [if_pos hlt]
    by_cases hskip : ∀ r, v.st.run = some r →
        r.allocatedSize ≤ r.streamPosition ∨ v.st.dataSize ≤ v.st.streamPosition
    · rw [readDataRun_skip _ _ _ _ hskip]
      dsimp only
      by_cases hfull : v.st.dataSize ≤ v.st.streamPosition
      · -- nothing is left of the value
        have hz : ∀ k, min k (v.st.dataSize - v.st.streamPosition) = 0 := by intro k; omega
        rw [hz, takeCells_zero]
        cases post with
        | nil =>
          obtain ⟨runs', e, hy'⟩ := nextDataRun_done' v hy
          rw [e]
          dsimp only
          refine ⟨[], _, { v with runs := runs' }, [], d, rfl, ?_, rfl, hd, rfl, hy', hcur, fun _ h => h,
            Nat.le_refl _, .inr (by simpa using hfull)⟩
          rw [overwrite_nil]; rfl
        | cons x xs =>
          obtain ⟨runs', e, hy'⟩ := nextDataRun_step v x xs hy
          rw [e]
          dsimp only
          obtain ⟨got, rest, v', post', d', h1, h2, h3, h4, h5, h6, h7, h8, h9, h10⟩ :=
            ih { v with runs := runs', st := { v.st with run := some x } } buf br d xs hd hy'
              (by intro r hr; injection hr with hr; subst hr; exact hpost _ (by simp))
              (fun r hr => hpost r (by simp [hr])) hbr (by simp at hfuel; omega)
          dsimp only at h1 h2 h5
          rw [hz, takeCells_zero] at h1
          injection h1 with h1 h1'
          subst h1
          refine ⟨[], _, v', post', d', rfl, h2, h3, h4, h5, h6, h7, ?_, ?_, .inr (by simpa using hfull)⟩
          · intro r hr; simp [h8 r hr]
          · simp; omega
      · -- the current run is exhausted, or there is none
        have hpend : restCells d.img (pending v.st post) = restCells d.img post := by
          cases hr : v.st.run with
          | none => simp [pending, hr]
          | some r =>
            rcases hskip r hr with h | h
            · simp [pending, hr, restCells_cons, runCells_end _ _ h]
            · exact absurd h hfull
        rw [hpend]
        cases post with
        | nil =>
          obtain ⟨runs', e, hy'⟩ := nextDataRun_done' v hy
          rw [e]
          dsimp only
          refine ⟨[], [], { v with runs := runs' }, [], d, takeCells_nil _, ?_, rfl, hd, rfl, hy', hcur,
            fun _ h => h, Nat.le_refl _, .inl ?_⟩
          · rw [overwrite_nil]; rfl
          · show Like (restCells d.img (pending v.st [])) []
            rw [hpend]
            exact Like.refl _
        | cons x xs =>
          obtain ⟨runs', e, hy'⟩ := nextDataRun_step v x xs hy
          rw [e]
          dsimp only
          obtain ⟨got, rest, v', post', d', h1, h2, h3, h4, h5, h6, h7, h8, h9, h10⟩ :=
            ih { v with runs := runs', st := { v.st with run := some x } } buf br d xs hd hy'
              (by intro r hr; injection hr with hr; subst hr; exact hpost _ (by simp))
              (fun r hr => hpost r (by simp [hr])) hbr (by simp at hfuel; omega)
          have hp : restCells d.img (pending { v.st with run := some x } xs) =
              restCells d.img (x :: xs) := by simp [pending]
          dsimp only at h1 h2 h5 h10
          rw [hp] at h1
          refine ⟨got, rest, v', post', d', h1, h2, h3, h4, h5, h6, h7, ?_, ?_, h10⟩
          · intro r hr; simp [h8 r hr]
          · simp; omega
    · -- the current run is read
      have hr : ∃ r, v.st.run = some r ∧ r.streamPosition < r.allocatedSize ∧
          v.st.streamPosition < v.st.dataSize := by
        cases hr : v.st.run with
        | none => exact absurd (fun r h => by rw [hr] at h; cases h) hskip
        | some r =>
          refine ⟨r, rfl, ?_⟩
          by_cases hh : r.allocatedSize ≤ r.streamPosition ∨ v.st.dataSize ≤ v.st.streamPosition
          · exact absurd (fun r' h => by rw [hr] at h; injection h with h; subst h; exact hh) hskip
          · omega
      obtain ⟨r, hr, hlt2, hsz⟩ := hr
      have hok := hcur r hr
      obtain ⟨b, d1, e, h2, h3, h4, h5, h6, h7, h8⟩ :=
        readDataRun_cells v.st buf br d r hd hr hok hlt2 hsz hlt
      rw [e]
      have hp : restCells d.img (pending v.st post) = runCells d.img r ++ restCells d.img post := by
        simp [pending, hr, restCells_cons]
      have hokb : Fine { r with streamPosition := r.streamPosition + b.length } :=
        ⟨by have := hok.le; dsimp only; omega, hok.lt, hok.addr⟩
      by_cases hb : 0 < b.length
      · rw [show (decide (0 < b.length)) = true from by simpa using hb]
        dsimp only
        have hol : (overwrite buf br b).length = buf.length := overwrite_length (by omega)
        obtain ⟨got, rest, v', post', d', g1, g2, g3, g4, g5, g6, g7, g8, g9, g10⟩ :=
          ih { v with st := { v.st with
                run := some { r with streamPosition := r.streamPosition + b.length }
                streamPosition := v.st.streamPosition + b.length } }
            (overwrite buf br b) (br + b.length) d1 post h6 hy
            (by intro r' hr'; injection hr' with hr'; subst hr'; exact hokb)
            hpost (by rw [hol]; exact h2) (by rw [hol]; omega)
        dsimp only at g1 g2 g5 g10
        rw [h5] at g1 g3 g10
        have hp' : restCells d.img (pending { v.st with
                run := some { r with streamPosition := r.streamPosition + b.length }
                streamPosition := v.st.streamPosition + b.length } post) =
            (runCells d.img r).drop b.length ++ restCells d.img post := by
          rw [← runCells_advance d.img r b.length h3]
          simp [pending, restCells_cons]
        rw [hp', hol] at g1
        refine ⟨b ++ got, rest, v', post', d', ?_, ?_, g3, g4, ?_, g6, g7, g8, g9, ?_⟩
        · rw [hp, h7, List.append_assoc, takeCells_some _ _ _ (by omega)]
          have e1 : min (buf.length - br) (v.st.dataSize - v.st.streamPosition) - b.length =
              min (buf.length - (br + b.length)) (v.st.dataSize - (v.st.streamPosition + b.length)) := by
            omega
          rw [e1, g1]
        · rw [g2, List.length_append, overwrite_append buf b got br (by omega)]
          congr 2
          omega
        · rw [g5, List.length_append]
          simp only [Nat.add_assoc]
        · rw [List.length_append]
          rcases g10 with h | h
          · exact .inl h
          · right; omega
      · rw [show (decide (0 < b.length)) = false from by simpa using hb]
        have hb0 : b = [] := List.eq_nil_of_length_eq_zero (by omega)
        subst hb0
        rw [overwrite_nil]
        dsimp only [List.length_nil, Nat.add_zero] at h2 h3 h4 hokb ⊢
        have hnone := h8 rfl
        have hwant : 0 < min (buf.length - br) (v.st.dataSize - v.st.streamPosition) := by omega
        have hst : ({ v with st := { v.st with run := some r } } : NonRes) = v := by
          rw [← hr]
        rw [hp, takeCells_none _ _ _ hnone hwant]
        cases post with
        | nil =>
          obtain ⟨runs', e, hy'⟩ := nextDataRun_done' v hy
          have e' : NonRes.nextDataRun { v with st := { v.st with run := some r } } =
              (.ok false, { v with runs := runs' }) := by rw [hst]; exact e
          rw [e']
          dsimp only
          refine ⟨[], [], { v with runs := runs' }, [], d1, takeCells_nil _, ?_, h5, h6, rfl, hy', hcur,
            fun _ h => h, Nat.le_refl _, .inl ?_⟩
          · rw [overwrite_nil]; rfl
          · show Like (restCells d.img (pending v.st [])) []
            rw [hp, restCells_nil, List.append_nil]
            exact Like.nil_iff.2 hnone
        | cons x xs =>
          obtain ⟨runs', e, hy'⟩ := nextDataRun_step v x xs hy
          have e' : NonRes.nextDataRun { v with st := { v.st with run := some r } } =
              (.ok true, { v with runs := runs', st := { v.st with run := some x } }) := by
            rw [hst]; exact e
          rw [e']
          dsimp only
          obtain ⟨got, rest, v', post', d', g1, g2, g3, g4, g5, g6, g7, g8, g9, g10⟩ :=
            ih { v with runs := runs', st := { v.st with run := some x } } buf br d1 xs h6 hy'
              (by intro r hr; injection hr with hr; subst hr; exact hpost _ (by simp))
              (fun r hr => hpost r (by simp [hr])) hbr (by simp at hfuel; omega)
          have hp2 : restCells d.img (pending { v.st with run := some x } xs) =
              restCells d.img (x :: xs) := by simp [pending]
          dsimp only at g1 g2 g5 g10
          rw [h5] at g1 g3 g10
          rw [hp2] at g1
          refine ⟨got, rest, v', post', d', g1, g2, g3, g4, g5, g6, g7, ?_, ?_, g10⟩
          · intro r hr; simp [g8 r hr]
          · simp; omega

theorem seekLoop_cells (img : Bytes) (fuel : Nat) (v : NonRes) (pos : SeekFrom) (left : Nat)
    (post : List DataRun)
    (hy : Yields v.runs post) (hcur : ∀ r, v.st.run = some r → Fine r)
    (hpost : ∀ r ∈ post, Fine r ∧ r.streamPosition = 0)
    (hm : SeekMode pos v.st) (hI : ∀ n, pos = .current n → left < I63)
    (hfuel : post.length < fuel) :
    ∃ v' post', NonRes.seekLoop fuel v pos left = (.ok (), v') ∧
      v' = { v with runs := v'.runs, st := { v.st with run := v'.st.run } } ∧
      Yields v'.runs post' ∧ (∀ r, v'.st.run = some r → Fine r) ∧
      (∀ r ∈ post', r ∈ post) ∧ post'.length ≤ post.length ∧
      restCells img (pending v'.st post') = (restCells img (pending v.st post)).drop left := by
  induction fuel generalizing v left post with
  | zero => omega
  | succ fuel ih =>
    unfold NonRes.seekLoop
    by_cases hleft : left > 0
    case neg =>
      rw [if_neg hleft]
      have : left = 0 := by omega
      subst this
      exact ⟨v, post, rfl, rfl, hy, hcur, fun _ h => h, Nat.le_refl _, rfl⟩
    rw [if_pos hleft]
    by_cases hskip : ∀ r, v.st.run = some r → r.allocatedSize - r.streamPosition ≤ left
    · obtain ⟨k, hk, hpend⟩ : ∃ k, v.st.seekDataRun pos left = (.ok false, v.st, left - k) ∧
          restCells img post = (restCells img (pending v.st post)).drop k ∧ k ≤ left := by
        refine ⟨_, seekDataRun_skip _ _ _ hskip, ?_⟩
        cases hr : v.st.run with
        | none => exact ⟨by simp [pending, hr], by simp⟩
        | some r =>
          dsimp only
          refine ⟨?_, hskip r hr⟩
          have : restCells img (pending v.st post) = runCells img r ++ restCells img post := by
            simp [pending, hr, restCells_cons]
          rw [this, List.drop_left' (runCells_length img r)]
      rw [hk]
      dsimp only
      cases post with
      | nil =>
        obtain ⟨runs', e, hy'⟩ := nextDataRun_done' v hy
        rw [e]
        dsimp only
        refine ⟨_, [], rfl, rfl, hy', (by intro r hr; cases hr), fun _ h => h, Nat.le_refl _, ?_⟩
        have h0 := congrArg (List.drop (left - k)) hpend.1
        rw [List.drop_drop, restCells_nil, List.drop_nil] at h0
        have e : k + (left - k) = left := by have := hpend.2; omega
        rw [e] at h0
        rw [← h0]
        rfl
      | cons x xs =>
        obtain ⟨runs', e, hy'⟩ := nextDataRun_step v x xs hy
        rw [e]
        dsimp only
        obtain ⟨v', post', h1, h2, h3, h4, h5, h6, h7⟩ :=
          ih { v with runs := runs', st := { v.st with run := some x } } (left - k) xs hy'
            (by intro r hr; injection hr with hr; subst hr; exact (hpost _ (by simp)).1)
            (fun r hr => hpost r (by simp [hr]))
            (by
              cases pos with
              | start n =>
                intro r hr; injection hr with hr; subst hr; exact (hpost _ (by simp)).2
              | current n => trivial
              | end_ n => exact hm.elim)
            (by intro n hn; have := hI n hn; omega) (by simp at hfuel; omega)
        refine ⟨v', post', h1, h2, h3, h4, by intro r hr; simp [h5 r hr], by simp; omega, ?_⟩
        have hx : restCells img (pending { v.st with run := some x } xs) = restCells img (x :: xs) := by
          simp [pending]
        have e : k + (left - k) = left := by have := hpend.2; omega
        rw [h7]
        dsimp only
        rw [hx, hpend.1, List.drop_drop, e]
    · have hr : ∃ r, v.st.run = some r ∧ left < r.allocatedSize - r.streamPosition := by
        cases hr : v.st.run with
        | none => exact absurd (fun r h => by rw [hr] at h; cases h) hskip
        | some r =>
          refine ⟨r, rfl, ?_⟩
          by_cases hh : r.allocatedSize - r.streamPosition ≤ left
          · exact absurd (fun r' h => by rw [hr] at h; injection h with h; subst h; exact hh) hskip
          · omega
      obtain ⟨r, hr, hlt⟩ := hr
      have hok := hcur r hr
      rw [seekDataRun_final _ _ _ r hr hlt hm hok.lt hI]
      dsimp only
      refine ⟨_, post, rfl, rfl, hy, ?_, fun _ h => h, Nat.le_refl _, ?_⟩
      · intro r' hr'; injection hr' with hr'; subst hr'
        exact ⟨by have := hok.le; dsimp only; omega, hok.lt, hok.addr⟩
      · have e1 : restCells img (pending v.st post) = runCells img r ++ restCells img post := by
          simp [pending, hr, restCells_cons]
        rw [e1, List.drop_append_of_le_length (by rw [runCells_length]; omega),
          ← runCells_advance img r left (by omega)]
        simp [pending, restCells_cons]

/-! ## Histories -/

/-- The value `v` over the runs `all` is where the file `g` is. -/
structure NonRes.Follows (img : Bytes) (all : List DataRun) (g : Sunk) (v : NonRes) : Prop where
  fresh : Yields v.dataRuns all
  allOk : ∀ r ∈ all, Fine r ∧ r.streamPosition = 0
  few : all.length ≤ v.data.length
  sizeLt : v.st.dataSize < U64
  posLt : v.st.streamPosition < U64
  curOk : ∀ r, v.st.run = some r → Fine r
  cells : g.all = restCells img all
  len : g.len = v.st.dataSize
  pos : g.pos = v.st.streamPosition
  pend : ∃ post, Yields v.runs post ∧ (∀ r ∈ post, r ∈ all) ∧ post.length ≤ all.length ∧
    (Like (restCells img (pending v.st post)) g.rest ∨ v.st.dataSize ≤ v.st.streamPosition)

theorem NonRes.rewind_yields (all : List DataRun) (v : NonRes) (hy : Yields v.dataRuns all) :
    ∃ v1 post, v.rewind = (.ok (), v1) ∧ v1.data = v.data ∧ v1.dataRuns = v.dataRuns ∧
      v1.st.dataSize = v.st.dataSize ∧ v1.st.streamPosition = 0 ∧
      Yields v1.runs post ∧ v1.st.run.toList ++ post = all ∧
      (∀ r, v1.st.run = some r → r ∈ all) ∧ (∀ r ∈ post, r ∈ all) ∧ post.length ≤ all.length := by
  unfold NonRes.rewind
  cases all with
  | nil =>
    obtain ⟨runs', e, hy'⟩ := nextDataRun_done'
      { v with runs := v.dataRuns, st := StreamState.new v.len } hy
    rw [e]
    exact ⟨_, [], rfl, rfl, rfl, rfl, rfl, hy', rfl, (by intro r hr; cases hr), by simp, by simp⟩
  | cons x xs =>
    obtain ⟨runs', e, hy'⟩ := nextDataRun_step
      { v with runs := v.dataRuns, st := StreamState.new v.len } x xs hy
    rw [e]
    refine ⟨_, xs, rfl, rfl, rfl, rfl, rfl, hy', rfl, ?_, ?_, by simp⟩
    · intro r hr; injection hr with hr; simp [hr]
    · intro r hr; simp [hr]

theorem NonRes.step_cells (img : Bytes) (all : List DataRun) (g : Sunk) (v : NonRes)
    (hf : v.Follows img all g) (op : Op) (hop : op.InRange) (d : Dev) (hd : d.NoFail)
    (hi : d.img = img) :
    (v.step d op).1 = (g.step op).1 ∧ (v.step d op).2.1.Follows img all (g.step op).2 ∧
      (v.step d op).2.2.NoFail ∧ (v.step d op).2.2.img = img := by
  subst hi
  have hfew := hf.few
  have hposLt := hf.posLt
  obtain ⟨post, hy, hsub, hlen, hp⟩ := hf.pend
  cases op with
  | read buf =>
    obtain ⟨got, rest, v', post', d', h1, h2, h3, h4, h5, h6, h7, h8, h9, h10⟩ :=
      readLoop_cells (buf.length + v.data.length + v.runs.data.length + 2) v buf 0 d post hd hy hf.curOk
        (fun r hr => (hf.allOk r (hsub r hr)).1) (by omega) (by omega)
    have hrd : v.read buf d = (.ok got.length, v', got ++ buf.drop got.length, d') := by
      unfold NonRes.read
      rw [h2, Nat.zero_add]
      simp [overwrite]
    rw [Nat.sub_zero] at h1
    have hgl : got.length ≤ min buf.length (v.st.dataSize - v.st.streamPosition) := by
      have := takeCells_length (min buf.length (v.st.dataSize - v.st.streamPosition))
        (restCells d.img (pending v.st post))
      rw [h1] at this
      exact this
    have hspec : ∃ rest', takeCells (min buf.length (g.len - g.pos)) g.rest = (got, rest') ∧
        (Like (restCells d.img (pending v'.st post')) rest' ∨
          v.st.dataSize ≤ v.st.streamPosition + got.length) := by
      rw [hf.len, hf.pos]
      rcases hp with hp | hp
      · obtain ⟨k1, k2⟩ := takeCells_like hp (min buf.length (v.st.dataSize - v.st.streamPosition))
        rw [h1] at k1 k2
        dsimp only at k1 k2
        refine ⟨_, Prod.ext k1.symm rfl, ?_⟩
        rcases h10 with h | h
        · exact .inl (fun i => (h i).trans (k2 i))
        · exact .inr h
      · have hz : min buf.length (v.st.dataSize - v.st.streamPosition) = 0 := by omega
        rw [hz, takeCells_zero] at h1
        injection h1 with h1
        subst h1
        rw [hz, takeCells_zero]
        exact ⟨_, rfl, .inr (by simpa using hp)⟩
    obtain ⟨rest', hs1, hs2⟩ := hspec
    simp only [NonRes.step, hrd, Sunk.step, hs1]
    refine ⟨trivial, ⟨?_, hf.allOk, ?_, ?_, ?_, h7, hf.cells, ?_, ?_, post', h6, ?_, by omega, ?_⟩, h4,
      h3⟩
    · rw [h5]; exact hf.fresh
    · rw [h5]; exact hf.few
    · rw [h5]; exact hf.sizeLt
    · rw [h5]
      have := hf.sizeLt
      dsimp only; omega
    · rw [h5]; exact hf.len
    · rw [h5]; dsimp only; rw [hf.pos]
    · intro r hr; exact hsub r (h8 r hr)
    · have e1 : v'.st.streamPosition = v.st.streamPosition + got.length := by rw [h5]
      have e2 : v'.st.dataSize = v.st.dataSize := by rw [h5]
      rw [e1, e2]
      exact hs2
  | seek s =>
    have hspec := optimizeSeek_spec v.st s v.st.dataSize hop hf.posLt hf.sizeLt
    simp only [NonRes.step, Sunk.step, hf.len, hf.pos]
    unfold NonRes.seek
    obtain ⟨t, ht⟩ : ∃ t, t = seekTarget v.st.streamPosition v.st.dataSize s := ⟨_, rfl⟩
    rw [← ht] at hspec ⊢
    by_cases hv : validTarget t
    case neg =>
      rw [if_neg hv] at hspec ⊢
      unfold NonRes.len
      rw [hspec]
      exact ⟨rfl, hf, hd, trivial⟩
    rw [if_pos hv] at hspec ⊢
    simp only [validTarget] at hv
    by_cases hc : v.st.streamPosition ≤ t.toNat ∧ t.toNat - v.st.streamPosition < I63
    · rw [if_pos hc] at hspec
      unfold NonRes.len
      rw [hspec]
      dsimp only
      rw [if_pos (by omega), if_pos hc]
      have hn : (((t.toNat - v.st.streamPosition : Nat) : Int)).toNat = t.toNat - v.st.streamPosition :=
        by omega
      rw [hn]
      obtain ⟨v2, post', h1, h2, h3, h4, h5, h6, h7⟩ :=
        seekLoop_cells d.img (v.data.length + 2) v
          (.current ((t.toNat - v.st.streamPosition : Nat) : Int)) (t.toNat - v.st.streamPosition) post hy
          hf.curOk (fun r hr => hf.allOk r (hsub r hr)) trivial (fun _ _ => hc.2) (by omega)
      rw [h1]
      dsimp only
      have e1 : v2.st.streamPosition = v.st.streamPosition := by rw [h2]
      have e2 : v2.st.dataSize = v.st.dataSize := by rw [h2]
      have e3 : v2.data = v.data := by rw [h2]
      have e4 : v2.dataRuns = v.dataRuns := by rw [h2]; rfl
      have e5 : v.st.streamPosition + (t.toNat - v.st.streamPosition) = t.toNat := by omega
      rw [e1, e5, if_pos (by omega)]
      refine ⟨rfl, ⟨?_, hf.allOk, ?_, ?_, ?_, h4, hf.cells, ?_, rfl, post', h3, ?_, by omega, ?_⟩, hd, trivial⟩
      · exact e4 ▸ hf.fresh
      · dsimp only; rw [e3]; exact hf.few
      · exact e2 ▸ hf.sizeLt
      · dsimp only; omega
      · exact e2.symm
      · intro r hr; exact hsub r (h5 r hr)
      · dsimp only
        rw [e2]
        rcases hp with hp | hp
        · left
          have : pending { run := v2.st.run, streamPosition := t.toNat, dataSize := v.st.dataSize } post'
            = pending v2.st post' := rfl
          rw [this, h7]
          exact hp.drop _
        · right; omega
    · rw [if_neg hc] at hspec
      unfold NonRes.len
      rw [hspec]
      dsimp only
      rw [if_neg hc]
      obtain ⟨v1, post1, g1, g2, g3, g4, g5, g6, g7, g8, g9, g10⟩ := NonRes.rewind_yields all v hf.fresh
      rw [g1]
      dsimp only
      obtain ⟨v2, post', h1, h2, h3, h4, h5, h6, h7⟩ :=
        seekLoop_cells d.img (v.data.length + 2) v1 (.start t.toNat) t.toNat post1 g6
          (fun r hr => (hf.allOk r (g8 r hr)).1) (fun r hr => hf.allOk r (g9 r hr))
          (fun r hr => (hf.allOk r (g8 r hr)).2) (by intro n hn; cases hn) (by omega)
      rw [h1]
      dsimp only
      have e2 : v2.st.dataSize = v.st.dataSize := by rw [h2]; exact g4
      have e3 : v2.data = v.data := by rw [h2]; exact g2
      have e4 : v2.dataRuns = v.dataRuns := by rw [← g3, h2]; rfl
      refine ⟨rfl, ⟨?_, hf.allOk, ?_, ?_, ?_, h4, hf.cells, ?_, rfl, post', h3, ?_, by omega, ?_⟩, hd, trivial⟩
      · exact e4 ▸ hf.fresh
      · dsimp only; rw [e3]; exact hf.few
      · exact e2 ▸ hf.sizeLt
      · dsimp only; omega
      · exact e2.symm
      · intro r hr; exact g9 r (h5 r hr)
      · left
        have : pending { run := v2.st.run, streamPosition := t.toNat, dataSize := v2.st.dataSize } post'
            = pending v2.st post' := rfl
        dsimp only
        rw [this, h7]
        unfold pending
        rw [g7, hf.cells]
        exact Like.refl _

theorem NonRes.run_cells (img : Bytes) (all : List DataRun) (ops : List Op)
    (hops : ∀ op ∈ ops, op.InRange) (g : Sunk) (v : NonRes) (hf : v.Follows img all g) (d : Dev)
    (hd : d.NoFail) (hi : d.img = img) :
    (v.run d ops).1 = (g.run ops).1 ∧ (v.run d ops).2.1.streamPosition = (g.run ops).2.pos := by
  induction ops generalizing g v d with
  | nil => exact ⟨rfl, hf.pos.symm⟩
  | cons op ops ih =>
    obtain ⟨h1, h2, h3, h4⟩ := NonRes.step_cells img all g v hf op (hops op (by simp)) d hd hi
    obtain ⟨i1, i2⟩ := ih (fun o ho => hops o (by simp [ho])) _ _ h2 _ h3 h4
    simp only [NonRes.run, Sunk.run]
    exact ⟨by rw [h1, i1], i2⟩

/-- A value is encoded as the extents `es`, wherever they lie on the device. The addresses have 64 bits. -/
structure EncodedAs (cs : Nat) (data : Bytes) (es : List Extent) : Prop where
  clusterPos : 0 < cs
  enc : Encodes 0 es data
  rep : ∀ e ∈ es, Representable cs e
  nonZero : NonZero 0 es
  addr : ∀ e ∈ es, ∀ l, e.lcn = some l → l * cs + e.count * cs < U64

theorem restCells_runOf (cs : Nat) (img : Bytes) (es : List Extent) :
    restCells img (es.map (runOf cs)) = cells cs img es := by
  induction es with
  | nil => rfl
  | cons e es ih =>
    simp only [List.map_cons, restCells_cons, ih, cells, List.flatMap_cons]
    congr 1
    rcases e with ⟨c, _ | l⟩ <;> simp [runCells, runOf, Extent.cells]

theorem NonRes.new_follows {cs : Nat} {data : Bytes} {es : List Extent} (img : Bytes)
    (h : EncodedAs cs data es) (p : Pos) (size : Nat) (hsize : size < U64) :
    ∃ v, NonRes.new cs data p size = .ok v ∧
      v.Follows img (es.map (runOf cs)) ⟨cells cs img es, size, 0, cells cs img es⟩ := by
  have hy := yields_encoded (DataRuns.new cs data p) es (by simpa [DataRuns.new] using h.enc)
    h.clusterPos h.rep h.nonZero
  have hy : Yields (DataRuns.new cs data p) (es.map (runOf cs)) := hy
  have hfew : (es.map (runOf cs)).length ≤ data.length := by
    rw [List.length_map]; exact encodes_length _ _ _ h.enc
  have hok : ∀ r ∈ es.map (runOf cs), Fine r ∧ r.streamPosition = 0 := by
    intro r hr
    obtain ⟨e, he, rfl⟩ := List.mem_map.1 hr
    refine ⟨⟨by simp [runOf], (h.rep e he).1, ?_⟩, rfl⟩
    intro q hq
    rcases e with ⟨c, _ | l⟩
    · simp [runOf] at hq
    · simp only [runOf, Option.some.injEq] at hq ⊢
      subst hq
      exact h.addr _ he l rfl
  rw [← restCells_runOf]
  obtain ⟨all, hall⟩ : ∃ all, all = es.map (runOf cs) := ⟨_, rfl⟩
  rw [← hall] at hy hfew hok ⊢
  unfold NonRes.new
  dsimp only
  cases all with
  | nil =>
    obtain ⟨runs', e, hy'⟩ := nextDataRun_done'
      { clusterSize := cs, data := data, position := p, runs := DataRuns.new cs data p,
        st := StreamState.new size } hy
    rw [e]
    refine ⟨_, rfl, ⟨hy, hok, hfew, hsize, by simp [StreamState.new], ?_, rfl, rfl, rfl, [], hy', by simp,
      by simp, .inl ?_⟩⟩
    · intro r hr; cases hr
    · simpa [pending, StreamState.new] using Like.refl _
  | cons x xs =>
    obtain ⟨runs', e, hy'⟩ := nextDataRun_step
      { clusterSize := cs, data := data, position := p, runs := DataRuns.new cs data p,
        st := StreamState.new size } x xs hy
    rw [e]
    refine ⟨_, rfl, ⟨hy, hok, hfew, hsize, by simp [StreamState.new], ?_, rfl, rfl, rfl, xs, hy', ?_,
      by simp, .inl ?_⟩⟩
    · intro r hr; injection hr with hr; subst hr; exact (hok _ (by simp)).1
    · intro r hr; simp [hr]
    · simpa [pending, StreamState.new] using Like.refl _

/-- C43, the law that holds: a value whose runs lie anywhere, inside the device or not, behaves in every
history of reads and seeks like a file whose missing bytes are passed over without moving the
position. Missing for C43: that missing bytes are reported, see `C43_negation`. -/
theorem C43_passed_over_partial (cs : Nat) (data : Bytes) (es : List Extent) (p : Pos) (size : Nat)
    (h : EncodedAs cs data es) (hsize : size < U64) (d : Dev) (hd : d.NoFail)
    (ops : List Op) (hops : ∀ op ∈ ops, op.InRange) :
    ∃ v, NonRes.new cs data p size = .ok v ∧
      (v.run d ops).1 =
        (Sunk.run ⟨cells cs d.img es, size, 0, cells cs d.img es⟩ ops).1 ∧
      (v.run d ops).2.1.streamPosition =
        (Sunk.run ⟨cells cs d.img es, size, 0, cells cs d.img es⟩ ops).2.pos := by
  obtain ⟨v, h1, h2⟩ := NonRes.new_follows d.img h p size hsize
  exact ⟨v, h1, NonRes.run_cells d.img _ ops hops _ v h2 d hd rfl⟩

theorem takeCells_all (n : Nat) (c : List (Option UInt8)) :
    (takeCells n c).1 = (c.filterMap id).take n := by
  induction c generalizing n with
  | nil => rw [takeCells_nil]; simp
  | cons x c ih =>
    cases n with
    | zero => rw [takeCells_zero]; simp
    | succ n =>
      cases x with
      | none => simp only [takeCells, List.filterMap_cons, id]; exact ih (n + 1)
      | some b => simp only [takeCells, List.filterMap_cons, id, List.take_succ_cons, ih n]

/-- C43: after a first seek to `t`, one read delivers the bytes behind `t` that the device has, up to the
size of the value. If no byte behind `t` is missing, these are the right ones; a missing byte makes all
later ones come too early. -/
theorem C43_read_after_seek (cs : Nat) (data : Bytes) (es : List Extent) (p : Pos) (size : Nat)
    (h : EncodedAs cs data es) (hsize : size < U64) (d : Dev) (hd : d.NoFail) (t : Nat) (ht : t < I63)
    (buf got : Bytes)
    (hgot : got = (((cells cs d.img es).drop t).filterMap id).take (min buf.length (size - t))) :
    ∃ v v1, NonRes.new cs data p size = .ok v ∧ v.seek (.start t) = (.ok t, v1) ∧
      ∃ v2 d2, v1.read buf d = (.ok got.length, v2, got ++ buf.drop got.length, d2) := by
  obtain ⟨v, h1, h2⟩ := NonRes.new_follows d.img h p size hsize
  have hop : (Op.seek (.start t)).InRange := by simp only [Op.InRange, SeekFrom.InRange]; omega
  obtain ⟨k1, k2, k3, k4⟩ := NonRes.step_cells d.img _ _ v h2 (.seek (.start t)) hop d hd rfl
  have hvt : validTarget (seekTarget 0 size (.start t)) := by
    simp only [validTarget, seekTarget]; omega
  have htn : (seekTarget 0 size (.start t)).toNat = t := by simp [seekTarget]
  simp only [Sunk.step, if_pos hvt, htn, Nat.zero_le, true_and, Nat.sub_zero, if_pos ht] at k1 k2
  have hsk : v.seek (.start t) = (.ok t, (v.seek (.start t)).2) := by
    apply Prod.ext
    · have := congrArg Out.result k1
      simpa only [NonRes.step] using this
    · rfl
  refine ⟨v, (v.seek (.start t)).2, h1, hsk, ?_⟩
  have k2' : (v.seek (.start t)).2.Follows d.img (es.map (runOf cs))
      ⟨cells cs d.img es, size, t, (cells cs d.img es).drop t⟩ := k2
  obtain ⟨post, hy, hsub, hlen, hp⟩ := k2'.pend
  have hfew := k2'.few
  generalize hv1 : (v.seek (.start t)).2 = v1 at *
  obtain ⟨got', rest, v', post', d', g1, g2, _⟩ :=
    readLoop_cells (buf.length + v1.data.length + v1.runs.data.length + 2) v1 buf 0 d post hd hy k2'.curOk
      (fun r hr => (k2'.allOk r (hsub r hr)).1) (by omega) (by omega)
  have hgot' : got' = got := by
    rw [hgot]
    have e1 : v1.st.dataSize = size := k2'.len.symm
    have e2 : v1.st.streamPosition = t := k2'.pos.symm
    rw [Nat.sub_zero, e1, e2] at g1
    rcases hp with hp | hp
    · have := (takeCells_like hp (min buf.length (size - t))).1
      rw [g1, takeCells_all] at this
      exact this
    · rw [e1, e2] at hp
      have hz : min buf.length (size - t) = 0 := by omega
      rw [hz, takeCells_zero] at g1
      injection g1 with g1
      rw [hz, List.take_zero, ← g1]
  subst hgot'
  refine ⟨v', d', ?_⟩
  unfold NonRes.read
  rw [g2, Nat.zero_add]
  simp [overwrite]

/-! Concrete cases. -/

/-- The value of `C43_negation`: its first cluster lies behind the end of a device of 12 bytes. -/
theorem exGappy : EncodedAs 4 [0x11, 1, 9, 0x11, 1, 0xF8] [⟨1, some 9⟩, ⟨1, some 1⟩] where
  clusterPos := by decide
  enc := by
    refine .run 0 1 1 _ _ _ ?_ (.run _ 1 1 _ _ _ ?_ (.atEnd _))
    · simp [WidthsOk, FitsSigned]
    · simp [WidthsOk, FitsSigned, Extent.lcnAfter]
  rep := by simp [Representable]
  nonZero := by simp [NonZero, Extent.lcnAfter]
  addr := by simp

/-- `C43_passed_over_partial` and `C43_read_after_seek` apply. Reading on does not help: the position never
gets to the end. A seek forward skips from the wrong place, with an absolute target as well (the last read
delivers byte 7 of the value as byte 4); a seek back puts the position right. -/
example : ∃ v, NonRes.new 4 [0x11, 1, 9, 0x11, 1, 0xF8] none 8 = .ok v ∧
    (v.run ⟨[0, 1, 2, 3, 4, 5, 6, 7, 8, 9, 10, 11], 0, []⟩
      [.read [77, 77], .seek (.current 1), .read [77, 77], .read [77], .seek (.start 1), .read [77],
        .seek (.start 4), .read [77, 77]]).1 =
      [⟨.ok 2, [4, 5]⟩, ⟨.ok 3, []⟩, ⟨.ok 1, [7, 77]⟩, ⟨.ok 0, [77]⟩, ⟨.ok 1, []⟩, ⟨.ok 1, [4]⟩,
        ⟨.ok 4, []⟩, ⟨.ok 1, [7, 77]⟩] := by
  obtain ⟨v, h1, h2, _⟩ := C43_passed_over_partial 4 _ _ none 8 exGappy (by decide)
    ⟨[0, 1, 2, 3, 4, 5, 6, 7, 8, 9, 10, 11], 0, []⟩ (by intro x hx; cases hx)
    [.read [77, 77], .seek (.current 1), .read [77, 77], .read [77], .seek (.start 1), .read [77],
        .seek (.start 4), .read [77, 77]] (by decide)
  exact ⟨v, h1, h2.trans (by decide)⟩

end NT
