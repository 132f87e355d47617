import Verif.Props.C29_IndexPanics
import Verif.Props.C18_Attributes
import Verif.Props.C49_Safety
import Verif.Spec.Harmless

/-! No panic on harmless volumes: the calculus, data runs, records and attributes. -/

namespace NT

open Spec

/-! ### The calculus -/

namespace Res.NoPanic

theorem bind {α β : Type} {x : Res α} {f : α → Res β} (hx : x.NoPanic)
    (hf : ∀ a, x = .ok a → (f a).NoPanic) : (x >>= f).NoPanic := by
  cases x with
  | ok a => exact hf a rfl
  | err e => exact Res.noPanic_err e
  | panic p => exact absurd rfl (hx p)
  | diverge => exact Res.noPanic_diverge

theorem ite {α : Type} {c : Prop} [Decidable c] {x y : Res α} (hx : c → x.NoPanic) (hy : ¬ c → y.NoPanic) :
    (if c then x else y).NoPanic := by
  split
  · exact hx ‹_›
  · exact hy ‹_›

theorem ofOption {α : Type} (e : Err) (o : Option α) : (Res.ofOption e o).NoPanic := by
  cases o with
  | none => exact Res.noPanic_err e
  | some a => exact Res.noPanic_ok a

end Res.NoPanic

/-- No panic, the state after it has `I`, and the value, if there is one, has `Q`. -/
structure Out {σ α : Type} (I : σ → Prop) (Q : α → Prop) (r : Res α × σ) : Prop where
  noPanic : r.1.NoPanic
  keeps : I r.2
  val : ∀ a, r.1 = .ok a → Q a

namespace Out

variable {σ α : Type} {I : σ → Prop} {Q : α → Prop} {s : σ}

theorem ok {a : α} (hI : I s) (h : Q a) : Out I Q (.ok a, s) :=
  ⟨Res.noPanic_ok _, hI, fun b e => by cases e; exact h⟩

theorem err {e : Err} (hI : I s) : Out I Q ((.err e, s) : Res α × σ) :=
  ⟨Res.noPanic_err _, hI, fun _ e => by cases e⟩

theorem diverge {s : σ} (hI : I s) : Out I Q ((.diverge, s) : Res α × σ) :=
  ⟨Res.noPanic_diverge, hI, fun _ e => by cases e⟩

theorem not_panic {p : Panic} {P : Prop} (h : Out I Q ((.panic p, s) : Res α × σ)) : P :=
  absurd rfl (h.noPanic p)

end Out

/-- In every state with `I` the operation does not panic, keeps `I`, and delivers only values with `Q`. -/
def StM.Tame {σ α : Type} (I : σ → Prop) (p : StM σ α) (Q : α → Prop) : Prop := ∀ s, I s → Out I Q (p s)

namespace StM.Tame

variable {σ α β : Type} {I : σ → Prop} {Q : α → Prop} {R : β → Prop}

theorem pure {a : α} (h : Q a) : StM.Tame I (Pure.pure a) Q := fun _ hI => .ok hI h

theorem fail (e : Err) : StM.Tame I (StM.fail e : StM σ α) Q := fun _ hI => .err hI

theorem lift {x : Res α} (hx : x.NoPanic) (h : ∀ a, x = .ok a → Q a) : StM.Tame I (StM.lift x) Q :=
  fun _ hI => ⟨hx, hI, h⟩

theorem bind {p : StM σ α} {f : α → StM σ β} (hp : StM.Tame I p Q)
    (hf : ∀ a, Q a → StM.Tame I (f a) R) : StM.Tame I (p >>= f) R := by
  intro s hI
  have h := hp s hI
  rw [StM.bind_apply]
  generalize p s = q at h
  obtain ⟨x, s'⟩ := q
  cases x with
  | ok a => exact hf a (h.val a rfl) s' h.keeps
  | err e => exact .err h.keeps
  | panic p => exact h.not_panic
  | diverge => exact .diverge h.keeps

theorem ite {c : Prop} [Decidable c] {p q : StM σ α} (hp : c → StM.Tame I p Q) (hq : ¬ c → StM.Tame I q Q) :
    StM.Tame I (if c then p else q) Q := by
  split
  · exact hp ‹_›
  · exact hq ‹_›

theorem weaken {p : StM σ α} {Q' : α → Prop} (h : StM.Tame I p Q) (hQ : ∀ a, Q a → Q' a) : StM.Tame I p Q' :=
  fun s hI => ⟨(h s hI).1, (h s hI).2, fun a e => hQ a ((h s hI).3 a e)⟩

end StM.Tame

/-- The device has these bytes, whatever its position and its answers to come. -/
def Dev.Has (img : Bytes) (d : Dev) : Prop := d.img = img

/-- The state has `P` and the device these bytes. -/
def With {σ : Type} (P : σ → Prop) (img : Bytes) (s : σ × Dev) : Prop := P s.1 ∧ s.2.Has img

/-! ### The device -/

theorem Dev.seekStart_tame (img : Bytes) (p : Nat) : StM.Tame (Dev.Has img) (Dev.seekStart p) fun _ => True := by
  intro d hd
  rcases Dev.seekStart_cases p d with ⟨d', e, h, _, _⟩ | ⟨x, d', e, h, _, _⟩ <;> rw [e]
  · exact .ok (h.trans hd) trivial
  · exact .err (h.trans hd)

theorem Dev.read_tame (img : Bytes) (n : Nat) : StM.Tame (Dev.Has img) (Dev.read n) fun b => b.length ≤ n := by
  intro d hd
  rcases Dev.read_cases n d with ⟨k, d', e, h1, _, h, _, _⟩ | ⟨x, d', e, h, _, _⟩ <;> rw [e]
  · refine .ok (h.trans hd) ?_
    rw [List.length_take]; omega
  · exact .err (h.trans hd)

theorem Dev.readExact_tame (img : Bytes) (n : Nat) :
    StM.Tame (Dev.Has img) (Dev.readExact n) fun b => b.length = n := by
  intro d hd
  obtain ⟨d', h, ⟨e, g⟩ | ⟨e, g⟩⟩ := Dev.readExact_any n d
  · rw [e]
    refine .ok (h.trans hd) ?_
    rw [List.length_take, List.length_drop]
    omega
  · rw [g]
    exact .err (h.trans hd)

/-! ### Data runs -/

/-- Every run that this and every later call of the iterator yields ends at or below 2^64. -/
def DataRuns.Fit (r : DataRuns) : Prop :=
  ∀ n x p, (r.after n).next.1 = some (.ok x) → x.position = some p → p + x.allocatedSize ≤ U64

theorem DataRuns.Fit.next {r : DataRuns} (h : r.Fit) : r.next.2.Fit := fun n => h (n + 1)

/-- A state in which every further call fails. -/
def DataRuns.Stuck (r : DataRuns) : Prop :=
  r.state.previousLcn < U64 ∧ U64 ≤ r.state.previousLcn * r.clusterSize ∧
    ∃ h c, r.data.drop r.state.offset = h :: c ∧ h ≠ 0 ∧
      0 < signedLE ((c.drop (h.toNat % 16)).take (h.toNat / 16))

theorem DataRuns.Stuck.next {r : DataRuns} (hs : r.Stuck) :
    (∃ e, r.next.1 = some (.err e)) ∧ r.next.2.Stuck := by
  obtain ⟨hp, hc, h, c, hd, h0, hpos⟩ := hs
  have hx := C09_exact r h c hd hp _ _ _ _ _ _ rfl rfl rfl rfl rfl rfl
  have self : r.Stuck := ⟨hp, hc, h, c, hd, h0, hpos⟩
  generalize hdel : signedLE ((c.drop (h.toNat % 16)).take (h.toNat / 16)) = delta at hx hpos
  generalize leNat (c.take (h.toNat % 16)) = count at hx
  generalize h.toNat % 16 = cb at hx
  generalize h.toNat / 16 = lb at hx
  rw [if_neg h0] at hx
  generalize r.next = q at hx ⊢
  split at hx
  · subst hx; exact ⟨⟨_, rfl⟩, self⟩
  split at hx
  · subst hx; exact ⟨⟨_, rfl⟩, self⟩
  split at hx
  · subst hx; exact ⟨⟨_, rfl⟩, self⟩
  split at hx
  · subst hx; exact ⟨⟨_, rfl⟩, self⟩
  split at hx
  · subst hx; exact ⟨⟨_, rfl⟩, self⟩
  rw [if_neg (by omega)] at hx
  split at hx
  · subst hx; exact ⟨⟨_, rfl⟩, self⟩
  · rename_i hr
    have hge : r.state.previousLcn * r.clusterSize ≤
        ((r.state.previousLcn : Int) + delta).toNat * r.clusterSize :=
      Nat.mul_le_mul_right _ (by omega)
    rw [if_pos (by omega)] at hx
    subst hx
    refine ⟨⟨_, rfl⟩, ?_, ?_, ?_⟩
    · dsimp only; omega
    · dsimp only; omega
    · obtain ⟨_, _, h', c', hd', h0', hpos'⟩ := self
      exact ⟨h', c', hd', h0', hpos'⟩

theorem DataRuns.Stuck.fit {r : DataRuns} (hs : r.Stuck) : r.Fit := by
  have key : ∀ n (r : DataRuns), r.Stuck → (r.after n).Stuck := by
    intro n
    induction n with
    | zero => intro r h; exact h
    | succ n ih => intro r h; exact ih _ h.next.2
  intro n x p hx _
  obtain ⟨e, he⟩ := (key n r hs).next.1
  rw [he] at hx
  cases hx

theorem DataRuns.fit_of_stored (r : DataRuns) (hp : r.state.previousLcn < U64)
    (hcs : r.state.previousLcn * r.clusterSize < U64)
    (h : ∀ lcn count, Stored r.clusterSize (r.data.drop r.state.offset) r.state.previousLcn lcn count →
      lcn * r.clusterSize + count * r.clusterSize ≤ 2 ^ 64) : r.Fit := by
  intro n
  induction n using Nat.strongRecOn generalizing r with
  | ind n ih =>
  cases hd : r.data.drop r.state.offset with
  | nil =>
    have hn : r.next = (none, r) := C09_exact_at_end r hd
    intro x p hx
    have : r.after n = r := by
      clear ih
      induction n with
      | zero => rfl
      | succ n ih2 => simp only [DataRuns.after]; rw [hn]; apply ih2; simpa only [DataRuns.after, hn] using hx
    rw [this, hn] at hx
    cases hx
  | cons b c =>
    have hx := C09_exact r b c hd hp _ _ _ _ _ _ rfl rfl rfl rfl rfl rfl
    by_cases h0 : b = 0
    · rw [if_pos h0] at hx
      cases n with
      | zero => intro x p e; rw [DataRuns.after, hx] at e; cases e
      | succ n =>
        rw [DataRuns.after, hx]
        refine ih n (Nat.lt_succ_self n) _ hp hcs ?_
        intro lcn count hs
        dsimp only at hs
        rw [List.drop_length] at hs
        exfalso
        cases hs with
        | here hp _ => obtain ⟨_, _, e, _⟩ := hp.pair; cases e
        | later hp _ => obtain ⟨_, _, e, _⟩ := hp.pair; cases e
    rw [if_neg h0] at hx
    have same : ∀ e, r.next = (some (.err e), r) → ∀ (x : DataRun) (p : Nat),
        (r.after n).next.1 = some (.ok x) → x.position = some p → p + x.allocatedSize ≤ U64 := by
      intro e he
      cases n with
      | zero => intro x p e; rw [DataRuns.after, he] at e; cases e
      | succ n => rw [DataRuns.after, he]; exact ih n (Nat.lt_succ_self n) r hp hcs h
    have hpair : ∀ (cb lb : Nat) (count : Nat) (delta : Int), cb = b.toNat % 16 → lb = b.toNat / 16 →
        count = leNat (c.take cb) → delta = signedLE ((c.drop cb).take lb) → cb ≤ 8 → lb ≤ 8 →
        cb + lb ≤ c.length → count * r.clusterSize < U64 → 0 ≤ (r.state.previousLcn : Int) + delta →
        ((r.state.previousLcn : Int) + delta).toNat * r.clusterSize < U64 →
        Pair r.clusterSize (b :: c) r.state.previousLcn count delta
          (r.data.drop (r.state.offset + 1 + cb + lb)) := by
      intro cb lb count delta e1 e2 e3 e4 h1 h2 h3 h4 h5 h6
      subst e1 e2
      refine ⟨⟨b, c, rfl, h0, h1, h2, h3, e3, e4, ?_⟩, h4, h5, h6⟩
      have : r.data.drop (r.state.offset + 1 + b.toNat % 16 + b.toNat / 16) =
          (r.data.drop r.state.offset).drop (1 + (b.toNat % 16 + b.toNat / 16)) := by
        rw [List.drop_drop]; congr 1; omega
      rw [this, hd, Nat.add_comm 1, List.drop_succ_cons]
    obtain ⟨cb, ecb⟩ : ∃ cb, cb = b.toNat % 16 := ⟨_, rfl⟩
    obtain ⟨lb, elb⟩ : ∃ lb, lb = b.toNat / 16 := ⟨_, rfl⟩
    obtain ⟨count, ecount⟩ : ∃ n, n = leNat (c.take cb) := ⟨_, rfl⟩
    obtain ⟨delta, edelta⟩ : ∃ z, z = signedLE ((c.drop cb).take lb) := ⟨_, rfl⟩
    have hpair := hpair cb lb count delta ecb elb ecount edelta
    rw [← ecb, ← elb, ← ecount, ← edelta] at hx
    split at hx
    · exact same _ hx
    split at hx
    · exact same _ hx
    split at hx
    · exact same _ hx
    split at hx
    · exact same _ hx
    split at hx
    · exact same _ hx
    split at hx
    · rename_i hz
      have hp0 := hpair (by omega) (by omega) (by omega) (by omega) (by omega) (by
        rw [hz]; simpa using hcs)
      cases n with
      | zero =>
        intro x p e hpos
        rw [DataRuns.after, hx] at e
        cases e
        cases hpos
      | succ n =>
        rw [DataRuns.after, hx]
        refine ih n (Nat.lt_succ_self n) _ hp hcs fun lcn count' hs => ?_
        refine h lcn count' ?_
        rw [hd]
        refine .later hp0 ?_
        rw [hz]
        simpa using hs
    split at hx
    · exact same _ hx
    split at hx
    · rename_i hnz hr hbig
      cases n with
      | zero => intro x p e; rw [DataRuns.after, hx] at e; cases e
      | succ n =>
        rw [DataRuns.after, hx]
        refine DataRuns.Stuck.fit (r := { r with state := { r.state with previousLcn := ((r.state.previousLcn : Int) + delta).toNat } }) ⟨?_, ?_, b, c, hd, h0, ?_⟩ n
        · dsimp only; omega
        · exact hbig
        · rw [← ecb, ← elb, ← edelta]
          apply Decidable.byContradiction
          intro hneg
          have := Nat.mul_le_mul_right r.clusterSize
            (show ((r.state.previousLcn : Int) + delta).toNat ≤ r.state.previousLcn by omega)
          omega
    · rename_i hnz hr hsm
      have hp0 := hpair (by omega) (by omega) (by omega) (by omega) (by omega) (by omega)
      cases n with
      | zero =>
        intro x p e hpos
        rw [DataRuns.after, hx] at e
        cases e
        have := h _ _ (by rw [hd]; exact .here hp0 hnz)
        dsimp only at hpos ⊢
        split at hpos
        · cases hpos
        · cases hpos; exact this
      | succ n =>
        rw [DataRuns.after, hx]
        refine ih n (Nat.lt_succ_self n) _ (by dsimp only; omega) (by dsimp only; omega) fun lcn count' hs => ?_
        refine h lcn count' ?_
        rw [hd]
        exact .later hp0 hs

theorem DataRuns.new_fit {cs : Nat} {b : Bytes} (p : Pos) (h : RunsFit cs b) : (DataRuns.new cs b p).Fit :=
  DataRuns.fit_of_stored _ (show (0 : Nat) < U64 by decide)
    (by show 0 * cs < U64; rw [Nat.zero_mul]; decide) fun lcn count hs => h lcn count hs

/-! ### Non-resident values -/

theorem NonRes.new_tame {cs : Nat} {b : Bytes} {p : Pos} {size : Nat} (hs : size < U64) (h : RunsFit cs b) :
    (NonRes.new cs b p size).NoPanic ∧ ∀ v, NonRes.new cs b p size = .ok v → v.Bounded := by
  have hfr : NonRes.Bounded
      { clusterSize := cs, data := b, position := p, runs := DataRuns.new cs b p,
        st := StreamState.new size } :=
    ⟨rfl, rfl, show (0 : Nat) < U64 by decide, show (0 : Nat) < U64 by decide, hs,
      DataRuns.new_fit p h, DataRuns.new_fit p h, fun r p hr => by cases hr⟩
  obtain ⟨hn, hcase⟩ := NonRes.nextDataRun_bounded _ hfr
  unfold NonRes.new
  dsimp only
  generalize NonRes.nextDataRun _ = q at hn hcase
  obtain ⟨x, v'⟩ := q
  dsimp only at hn hcase
  rcases hcase with ⟨rfl, _⟩ | rfl | ⟨x, rfl⟩
  · exact ⟨Res.noPanic_ok _, fun v h => by cases h; exact hn⟩
  · exact ⟨Res.noPanic_ok _, fun v h => by cases h; exact hn⟩
  · exact ⟨Res.noPanic_err _, fun v h => by cases h⟩

theorem NonRes.seek_tame {v : NonRes} (h : v.Bounded) (pos : SeekFrom) (hp : pos.InRange) :
    (v.seek pos).1.NoPanic ∧ (v.seek pos).2.Bounded := by
  obtain ⟨h1, h2⟩ := NonRes.step_bounded v ⟨[], 0, []⟩ (.seek pos) hp h
  exact ⟨h1.noPanic, h2⟩

theorem DataRun.read_has {img : Bytes} (r : DataRun) (buf : Bytes) (d : Dev) (hd : d.Has img) :
    (r.read buf d).2.2.2.Has img := by
  unfold DataRun.read
  by_cases h0 : r.remainingLen = 0
  · rw [if_pos h0]; exact hd
  rw [if_neg h0]
  cases r.position with
  | none => exact hd
  | some p =>
    dsimp only
    split
    · have h1 := (Dev.seekStart_tame img (p + r.streamPosition) d hd).keeps
      generalize Dev.seekStart (p + r.streamPosition) d = q at h1
      obtain ⟨x, d1⟩ := q
      cases x with
      | ok u =>
        dsimp only at h1 ⊢
        have h2 := (Dev.read_tame img (min buf.length r.remainingLen) d1 h1).keeps
        generalize Dev.read (min buf.length r.remainingLen) d1 = q at h2
        obtain ⟨x, d2⟩ := q
        cases x <;> exact h2
      | err e => exact h1
      | panic e => exact h1
      | diverge => exact h1
    · exact hd

theorem readDataRun_has {img : Bytes} (s : StreamState) (buf : Bytes) (br : Nat) (d : Dev) (hd : d.Has img) :
    (s.readDataRun buf br d).2.2.2.2.Has img := by
  unfold StreamState.readDataRun
  cases s.run with
  | none => exact hd
  | some r =>
    dsimp only
    split
    · exact hd
    split
    · exact hd
    have h1 := r.read_has ((buf.drop br).take
      (br + min (buf.length - br) (s.dataSize - s.streamPosition) - br)) d hd
    generalize r.read _ d = q at h1
    obtain ⟨x, r', b, d'⟩ := q
    cases x with
    | ok n => dsimp only; split <;> exact h1
    | err e => exact h1
    | panic e => exact h1
    | diverge => exact h1

theorem NonRes.readLoop_has {img : Bytes} (fuel : Nat) (v : NonRes) (buf : Bytes) (br : Nat) (d : Dev)
    (hd : d.Has img) : (NonRes.readLoop fuel v buf br d).2.2.2.Has img := by
  induction fuel generalizing v buf br d with
  | zero => exact hd
  | succ fuel ih =>
    unfold NonRes.readLoop
    split
    · have h1 := readDataRun_has v.st buf br d hd
      generalize v.st.readDataRun buf br d = q at h1
      obtain ⟨x, s', b, br', d'⟩ := q
      cases x with
      | ok t =>
        cases t with
        | true => exact ih _ _ _ _ h1
        | false =>
          dsimp only
          generalize NonRes.nextDataRun _ = q
          obtain ⟨x, v'⟩ := q
          cases x with
          | ok t =>
            cases t with
            | true => exact ih _ _ _ _ h1
            | false => exact h1
          | err e => exact h1
          | panic e => exact h1
          | diverge => exact h1
      | err e => exact h1
      | panic e => exact h1
      | diverge => exact h1
    · exact hd

theorem NonRes.read_tame {img : Bytes} {v : NonRes} (h : v.Bounded) (buf : Bytes) (d : Dev) (hd : d.Has img) :
    (v.read buf d).1.NoPanic ∧ (v.read buf d).2.1.Bounded ∧ (v.read buf d).2.2.2.Has img := by
  obtain ⟨h1, h2⟩ := readLoop_bounded (buf.length + v.data.length + v.runs.data.length + 2) v buf 0 d h
    (Nat.zero_le _) (by omega)
  exact ⟨h1.noPanic, h2, NonRes.readLoop_has _ _ _ _ _ hd⟩

end NT
