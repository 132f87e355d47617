import Verif.Props.C39_DataPosition

namespace NT

open Spec

/-- The device whose image ends after `n` bytes: everything else is the same. -/
def Dev.cut (n : Nat) (d : Dev) : Dev := { d with img := d.img.take n }

theorem Dev.seekStart_cut (p n : Nat) (d : Dev) :
    Dev.seekStart p (d.cut n) = ((Dev.seekStart p d).1, (Dev.seekStart p d).2.cut n) := by
  unfold Dev.seekStart Dev.cut
  dsimp only
  split <;> rfl

/-- A read that stays in front of the cut does not notice it. -/
theorem Dev.read_cut (m n : Nat) (d : Dev) (h : d.pos + m ≤ n) :
    Dev.read m (d.cut n) = ((Dev.read m d).1, (Dev.read m d).2.cut n) := by
  have key : ∀ k, k ≤ m → ((d.img.take n).drop d.pos).take k = (d.img.drop d.pos).take k := by
    intro k hk
    rw [List.drop_take, List.take_take]
    congr 1; omega
  unfold Dev.read Dev.cut
  dsimp only
  split
  · rfl
  · rw [key _ (by omega)]
  · rw [key _ (by omega)]

/-- A read of a run that stays in front of the cut does not notice it. -/
theorem DataRun.read_cut (r : DataRun) (buf : Bytes) (d : Dev) (n : Nat)
    (h : ∀ p, r.position = some p →
      p + r.streamPosition + min buf.length (r.allocatedSize - r.streamPosition) ≤ n) :
    r.read buf (d.cut n) =
      ((r.read buf d).1, (r.read buf d).2.1, (r.read buf d).2.2.1, (r.read buf d).2.2.2.cut n) := by
  unfold DataRun.read
  by_cases h0 : r.remainingLen = 0
  · rw [if_pos h0, if_pos h0]
  rw [if_neg h0, if_neg h0]
  dsimp only [DataRun.remainingLen]
  cases hp : r.position with
  | none => rfl
  | some p =>
    have h := h p hp
    dsimp only
    by_cases hlt : p + r.streamPosition < U64
    case neg => rw [if_neg hlt, if_neg hlt]
    rw [if_pos hlt, if_pos hlt, Dev.seekStart_cut]
    rcases Dev.seekStart_cases (p + r.streamPosition) d with ⟨d', e, i1, i2, _⟩ | ⟨x, d', e, _⟩
    · rw [e]
      dsimp only
      rw [Dev.read_cut _ _ _ (by rw [i2]; exact h)]
      generalize Dev.read (min buf.length (r.allocatedSize - r.streamPosition)) d' = q
      rcases q with ⟨_ | _ | _ | _, d2⟩ <;> rfl
    · rw [e]

theorem readDataRun_cut (s : StreamState) (buf : Bytes) (br : Nat) (d : Dev) (n : Nat)
    (h : ∀ r p, s.run = some r → r.position = some p → r.streamPosition < r.allocatedSize →
      p + r.streamPosition + min (min (buf.length - br) (s.dataSize - s.streamPosition))
        (r.allocatedSize - r.streamPosition) ≤ n ∨ s.dataSize ≤ s.streamPosition) :
    s.readDataRun buf br (d.cut n) =
      ((s.readDataRun buf br d).1, (s.readDataRun buf br d).2.1, (s.readDataRun buf br d).2.2.1,
        (s.readDataRun buf br d).2.2.2.1, (s.readDataRun buf br d).2.2.2.2.cut n) := by
  unfold StreamState.readDataRun
  cases hr : s.run with
  | none => rfl
  | some r =>
    dsimp only
    by_cases h1 : r.streamPosition ≥ r.allocatedSize
    · rw [if_pos h1, if_pos h1]
    rw [if_neg h1, if_neg h1]
    by_cases h2 : s.dataSize - s.streamPosition = 0
    · rw [if_pos h2, if_pos h2]
    rw [if_neg h2, if_neg h2, DataRun.read_cut]
    · generalize r.read _ d = q
      rcases q with ⟨_ | _ | _ | _, r', b', d'⟩
      · dsimp only
        split
        · rfl
        · rfl
      · rfl
      · rfl
      · rfl
    · intro p hp
      have := h r p hr hp (by omega)
      rw [List.length_take, List.length_drop]
      omega

theorem addrAt_head (r : DataRun) (rs : List DataRun) (p k : Nat) (hp : r.position = some p)
    (hk : k < r.allocatedSize - r.streamPosition) :
    addrAt (r :: rs) k = some (p + r.streamPosition + k) := by
  simp only [addrAt, if_pos hk, hp, Option.map_some]

/-- The loop of `read` does not notice the end of the image if every byte it has to deliver is in
front of it. -/
theorem readLoop_cut (fuel n : Nat) (v : NonRes) (buf : Bytes) (br : Nat) (d : Dev)
    (post : List DataRun) (hd : d.NoFail) (himg : d.img.length < U64)
    (hy : Yields v.runs post) (hcur : ∀ r, v.st.run = some r → RunOk d.img r)
    (hpost : ∀ r ∈ post, RunOk d.img r)
    (hhere : ∀ k, k < min (buf.length - br) (v.st.dataSize - v.st.streamPosition) →
      ∀ a, addrAt (pending v.st post) k = some a → a < n) :
    NonRes.readLoop fuel v buf br (d.cut n) =
      ((NonRes.readLoop fuel v buf br d).1, (NonRes.readLoop fuel v buf br d).2.1,
        (NonRes.readLoop fuel v buf br d).2.2.1, (NonRes.readLoop fuel v buf br d).2.2.2.cut n) := by
  induction fuel generalizing v buf br d post with
  | zero => rfl
  | succ fuel ih =>
    unfold NonRes.readLoop
    by_cases hlt : br < buf.length
    case neg => rw [if_neg hlt, if_neg hlt]
    rw [if_pos hlt, if_pos hlt]
    rw [readDataRun_cut]
    case h =>
      intro r p hr hp hsp
      by_cases hz : v.st.dataSize ≤ v.st.streamPosition
      · exact .inr hz
      left
      have hk : ∀ k, k < min (min (buf.length - br) (v.st.dataSize - v.st.streamPosition))
          (r.allocatedSize - r.streamPosition) → p + r.streamPosition + k < n := by
        intro k hk
        refine hhere k (by omega) _ ?_
        simp only [pending, hr, Option.toList, List.cons_append]
        exact addrAt_head r _ p k hp (by omega)
      have := hk (min (min (buf.length - br) (v.st.dataSize - v.st.streamPosition))
          (r.allocatedSize - r.streamPosition) - 1) (by omega)
      omega
    by_cases hskip : ∀ r, v.st.run = some r →
        r.allocatedSize ≤ r.streamPosition ∨ v.st.dataSize ≤ v.st.streamPosition
    · rw [readDataRun_skip _ _ _ _ hskip]
      dsimp only
      cases post with
      | nil =>
        obtain ⟨runs', e, hy'⟩ := nextDataRun_done' v hy
        rw [e]
      | cons x xs =>
        obtain ⟨runs', e, hy'⟩ := nextDataRun_step v x xs hy
        rw [e]
        dsimp only
        refine ih _ buf br d xs hd himg hy' ?_ (fun r hr => hpost r (by simp [hr])) ?_
        · intro r hr; injection hr with hr; subst hr; exact hpost _ (by simp)
        · intro k hk a ha
          refine hhere k hk a ?_
          dsimp only at hk ha
          rw [← ha]
          simp only [pending, Option.toList, List.cons_append, List.nil_append]
          cases hr : v.st.run with
          | none => rfl
          | some r =>
            rcases hskip r hr with h | h
            · have := (Shift.skipDone (img := d.img) (x :: xs) h).addr k
              rw [Nat.zero_add] at this
              exact this.symm
            · omega
    · have : ∃ r, v.st.run = some r ∧ r.streamPosition < r.allocatedSize ∧
          v.st.streamPosition < v.st.dataSize := by
        cases hr : v.st.run with
        | none => exact absurd (fun r h => by rw [hr] at h; cases h) hskip
        | some r =>
          refine ⟨r, rfl, ?_⟩
          by_cases h1 : r.streamPosition < r.allocatedSize
          · by_cases h2 : v.st.streamPosition < v.st.dataSize
            · exact ⟨h1, h2⟩
            · exact absurd (fun r' _ => .inr (by omega)) hskip
          · refine absurd (fun r' h => ?_) hskip
            rw [hr] at h; cases h
            exact .inl (by omega)
      obtain ⟨r, hr, h1, h2⟩ := this
      obtain ⟨m, d', e, m0, m1, m2, m3, m4, m5⟩ :=
        readDataRun_read v.st buf br d r hd himg hr (hcur r hr) h1 h2 hlt
      rw [e]
      dsimp only
      have hbl : (overwrite buf br ((runBytes d.img r).take m)).length = buf.length := by
        have : ((runBytes d.img r).take m).length = m := by
          rw [List.length_take, runBytes_length (hcur r hr)]; omega
        simp only [overwrite, List.length_append, List.length_take, List.length_drop, this]
        omega
      refine ih _ _ _ d' post m5 (by rw [m4]; exact himg) hy ?_ (by rw [m4]; exact hpost) ?_
      · intro r' hr'
        rw [m4]
        injection hr' with hr'
        subst hr'
        have ho := hcur r hr
        exact ⟨by dsimp only; have := ho.le; omega, ho.lt, ho.inside, ho.placed⟩
      · intro k hk a ha
        dsimp only at hk ha
        rw [hbl] at hk
        refine hhere (m + k) (by omega) a ?_
        have := (Shift.advance (img := d.img) post m (hcur r hr) m2).addr k
        simp only [pending, hr, Option.toList, List.cons_append, List.nil_append] at ha ⊢
        rw [← this, ha]

/-- Every byte that the operation delivers, on a flat file at position `pos` with `size` bytes, is
stored in front of the address `n` (or not stored at all); `addr` gives the addresses. -/
def Spec.InFront (addr : Nat → Option Nat) (n size pos : Nat) : Op → Prop
  | .read buf => ∀ t, pos ≤ t → t < pos + buf.length → t < size → ∀ a, addr t = some a → a < n
  | .seek _ => True

/-- No operation of the history delivers a byte stored at the address `n` or behind. -/
def Spec.AllInFront (addr : Nat → Option Nat) (n : Nat) : Flat → List Op → Prop
  | _, [] => True
  | f, op :: ops => InFront addr n f.len f.pos op ∧ AllInFront addr n (f.step op).2 ops

theorem NonRes.step_cut (img : Bytes) (all : List DataRun) (v : NonRes) (hg : v.Good img all)
    (himg : img.length < U64) (op : Op) (n : Nat) (d : Dev) (hd : d.NoFail)
    (hi : d.img = img)
    (h : InFront (addrAt all) n v.st.dataSize v.st.streamPosition op) :
    v.step (d.cut n) op = ((v.step d op).1, (v.step d op).2.1, (v.step d op).2.2.cut n) := by
  cases op with
  | seek s => rfl
  | read buf =>
    subst hi
    obtain ⟨post, hy, hsub, hlen, hp⟩ := hg.pend
    simp only [NonRes.step, NonRes.read]
    rw [readLoop_cut _ n v buf 0 d post hd himg hy hg.curOk
      (fun r hr => (hg.allOk r (hsub r hr)).1)]
    intro k hk a ha
    rcases hp with hp | hp
    · rw [hp.addr] at ha
      exact h (v.st.streamPosition + k) (by omega) (by omega) (by omega) a ha
    · omega

theorem NonRes.run_cut (img : Bytes) (all : List DataRun) (himg : img.length < U64) (n : Nat)
    (ops : List Op) (hops : ∀ op ∈ ops, op.InRange) (v : NonRes) (hg : v.Good img all) (d : Dev)
    (hd : d.NoFail) (hi : d.img = img) (h : AllInFront (addrAt all) n (v.flat img all) ops) :
    v.run (d.cut n) ops = ((v.run d ops).1, (v.run d ops).2.1, (v.run d ops).2.2.cut n) := by
  induction ops generalizing v d with
  | nil => rfl
  | cons op ops ih =>
    obtain ⟨h1, h2, h3, h4, h5⟩ :=
      NonRes.step_refines img all v hg himg op (hops op (by simp)) d hd hi
    simp only [NonRes.run]
    rw [NonRes.step_cut img all v hg himg op n d hd hi h.1]
    dsimp only
    rw [ih (fun o ho => hops o (by simp [ho])) _ h3 _ h4 h5 (by rw [h2]; exact h.2)]

/-- C43, the part that holds: take a value of a complete volume `img` and a device that holds only
the first `n` bytes of it. A history of reads and seeks in which no read covers a missing byte gives
exactly the results of the complete volume. Missing for C43: a read that covers a missing byte
reports no error and delivers the wrong bytes (`C43_negation`). -/
theorem C43_intact_partial (cs : Nat) (img data : Bytes) (es : List Extent) (p : Pos)
    (size n : Nat) (h : StoredAs cs img data es) (hsize : size < U64) (sched : List Resp)
    (pos : Nat) (hd : Dev.NoFail ⟨img.take n, pos, sched⟩) (ops : List Op)
    (hops : ∀ op ∈ ops, op.InRange)
    (hfront : AllInFront (addressOf cs es) n
      { content := (content cs img es).take size, len := size, pos := 0 } ops) :
    ∃ v, NonRes.new cs data p size = .ok v ∧
      (v.run ⟨img.take n, pos, sched⟩ ops).1 =
        (Flat.run { content := (content cs img es).take size, len := size, pos := 0 } ops).1 ∧
      (v.run ⟨img.take n, pos, sched⟩ ops).2.1.streamPosition =
        (Flat.run { content := (content cs img es).take size, len := size, pos := 0 } ops).2.pos := by
  obtain ⟨v, h1, h2, h3, h4, _⟩ := NonRes.new_good h p size hsize
  have hd' : Dev.NoFail ⟨img, pos, sched⟩ := hd
  obtain ⟨i1, i2, _⟩ := NonRes.run_refines img _ h.imgLt ops hops v h2 ⟨img, pos, sched⟩ hd' rfl
  have hf : v.flat img (es.map (runOf cs)) =
      { content := (content cs img es).take size, len := size, pos := 0 } := by
    unfold NonRes.flat
    rw [restBytes_runOf, h3, h4]
  have ha : addrAt (es.map (runOf cs)) = addressOf cs es := funext (addrAt_runOf cs es)
  have := NonRes.run_cut img _ h.imgLt n ops hops v h2 ⟨img, pos, sched⟩ hd' rfl
    (by rw [ha, hf]; exact hfront)
  have hc : (⟨img.take n, pos, sched⟩ : Dev) = Dev.cut n ⟨img, pos, sched⟩ := rfl
  rw [hf] at i1 i2
  refine ⟨v, h1, ?_, ?_⟩
  · rw [hc, this]; exact i1
  · rw [hc, this, ← i2]

/-- The volume of `exampleStored` on a device that ends after 8 of the 12 bytes: the first cluster of
the value is missing. -/
theorem exampleInFront : AllInFront (addressOf 4 [⟨1, some 2⟩, ⟨1, none⟩, ⟨1, some 1⟩]) 8
    { content := (content 4 [0, 1, 2, 3, 4, 5, 6, 7, 8, 9, 10, 11]
        [⟨1, some 2⟩, ⟨1, none⟩, ⟨1, some 1⟩]).take 10, len := 10, pos := 0 }
    [.seek (.start 6), .read [7, 7, 7, 7, 7], .seek (.current (-4)), .read [7]] := by
  refine ⟨trivial, ?_, trivial, ?_, trivial⟩
  · intro t h1 h2 h3 a ha
    have h1 : 6 ≤ t := h1
    simp only [addressOf] at ha
    rw [if_neg (by omega)] at ha
    split at ha
    · cases ha
    · split at ha
      · simp only [Option.map_some, Option.some.injEq] at ha; omega
      · cases ha
  · intro t h1 h2 h3 a ha
    have h1 : 6 ≤ t := h1
    simp only [addressOf] at ha
    rw [if_neg (by omega)] at ha
    split at ha
    · cases ha
    · split at ha
      · simp only [Option.map_some, Option.some.injEq] at ha; omega
      · cases ha

example : ∃ v, NonRes.new 4 [0x11, 1, 2, 0x01, 1, 0x11, 1, 0xFF, 0] none 10 = .ok v ∧
    (v.run ⟨[0, 1, 2, 3, 4, 5, 6, 7], 3, [.chunk 0, .chunk 0, .chunk 0]⟩
      [.seek (.start 6), .read [7, 7, 7, 7, 7], .seek (.current (-4)), .read [7]]).1 =
      [⟨.ok 6, []⟩, ⟨.ok 4, [0, 0, 4, 5, 7]⟩, ⟨.ok 6, []⟩, ⟨.ok 1, [0]⟩] := by
  obtain ⟨v, h1, h2, _⟩ := C43_intact_partial 4 _ _ _ none 10 8 exampleStored (by decide)
    [.chunk 0, .chunk 0, .chunk 0] 3 (by intro x hx e; simp at hx; rcases hx with rfl <;> simp)
    _ (by decide) exampleInFront
  exact ⟨v, h1, h2.trans (by decide)⟩

end NT
