import Verif.Props.C49_Safety
import Verif.Lemmas.ReadExact

/-! `read_exact` over arbitrary (malformed) values and arbitrarily failing devices: every round
delivers a byte or uses up an entry of the schedule of the device. -/

namespace NT

open Spec

/-- An operation never prolongs the schedule of the device, and if it reports `Interrupted`, it has
used up an entry. -/
def Uses {α : Type} (d : Dev) (r : Res α) (d' : Dev) : Prop :=
  d'.sched.length ≤ d.sched.length ∧
    (r = .err (.io .interrupted) → d'.sched.length < d.sched.length)

theorem Uses.refl_ok {α : Type} (d : Dev) (a : α) : Uses d (.ok a) d := ⟨Nat.le_refl _, fun h => by cases h⟩

theorem Uses.trans {α β : Type} {d d1 d2 : Dev} {r : Res α} {s : Res β} (h1 : Uses d r d1)
    (h2 : Uses d1 s d2) : Uses d s d2 :=
  ⟨Nat.le_trans h2.1 h1.1, fun h => Nat.lt_of_lt_of_le (h2.2 h) h1.1⟩

theorem Dev.seekStart_uses (p : Nat) (d : Dev) :
    Uses d (Dev.seekStart p d).1 (Dev.seekStart p d).2 := by
  rcases Dev.seekStart_cases p d with ⟨d', e, _, _, h⟩ | ⟨x, d', e, _, _, h⟩ <;> rw [e]
  · exact ⟨by rw [h, List.length_tail]; omega, fun h => by cases h⟩
  · exact ⟨by rw [h]; simp, fun _ => by rw [h]; simp⟩

theorem Dev.read_uses (n : Nat) (d : Dev) : Uses d (Dev.read n d).1 (Dev.read n d).2 := by
  rcases Dev.read_cases n d with ⟨k, d', e, _, _, _, _, h⟩ | ⟨x, d', e, _, _, h⟩ <;> rw [e]
  · exact ⟨by rw [h, List.length_tail]; omega, fun h => by cases h⟩
  · exact ⟨by rw [h]; simp, fun _ => by rw [h]; simp⟩

theorem DataRun.read_uses (r : DataRun) (buf : Bytes) (d : Dev) :
    Uses d (r.read buf d).1 (r.read buf d).2.2.2 := by
  unfold DataRun.read
  by_cases h0 : r.remainingLen = 0
  · rw [if_pos h0]; exact Uses.refl_ok _ _
  rw [if_neg h0]
  cases r.position with
  | none => exact Uses.refl_ok _ _
  | some p =>
    dsimp only
    split
    · have h1 := Dev.seekStart_uses (p + r.streamPosition) d
      cases hs : Dev.seekStart (p + r.streamPosition) d with
      | mk res d1 =>
      rw [hs] at h1
      dsimp only at h1
      cases res with
      | ok u =>
        dsimp only
        have h2 := Dev.read_uses (min buf.length r.remainingLen) d1
        cases hr : Dev.read (min buf.length r.remainingLen) d1 with
        | mk res d2 =>
        rw [hr] at h2
        dsimp only at h2
        cases res with
        | ok b => exact ⟨Nat.le_trans h2.1 h1.1, fun h => by cases h⟩
        | err e =>
          refine ⟨Nat.le_trans h2.1 h1.1, fun h => ?_⟩
          injection h with h; subst h
          exact Nat.lt_of_lt_of_le (h2.2 rfl) h1.1
        | panic p => exact ⟨Nat.le_trans h2.1 h1.1, fun h => by cases h⟩
        | diverge => exact ⟨Nat.le_trans h2.1 h1.1, fun h => by cases h⟩
      | err e =>
        refine ⟨h1.1, fun h => ?_⟩
        injection h with h; subst h
        exact h1.2 rfl
      | panic p => exact ⟨h1.1, fun h => by cases h⟩
      | diverge => exact ⟨h1.1, fun h => by cases h⟩
    · exact ⟨Nat.le_refl _, fun h => by cases h⟩

theorem readDataRun_uses (s : StreamState) (buf : Bytes) (br : Nat) (d : Dev) :
    Uses d (s.readDataRun buf br d).1 (s.readDataRun buf br d).2.2.2.2 := by
  unfold StreamState.readDataRun
  cases s.run with
  | none => exact Uses.refl_ok _ _
  | some r =>
    dsimp only
    split
    · exact Uses.refl_ok _ _
    split
    · exact Uses.refl_ok _ _
    generalize hsl : (buf.drop br).take _ = slice
    have h := r.read_uses slice d
    cases hr : r.read slice d with
    | mk res rest =>
    obtain ⟨r', b', d'⟩ := rest
    rw [hr] at h
    dsimp only at h
    cases res with
    | ok n =>
      dsimp only
      split <;> exact ⟨h.1, fun h => by cases h⟩
    | err e =>
      refine ⟨h.1, fun h' => ?_⟩
      injection h' with h'; subst h'
      exact h.2 rfl
    | panic p => exact ⟨h.1, fun h => by cases h⟩
    | diverge => exact ⟨h.1, fun h => by cases h⟩

/-- The errors of the data run iterator are never `Interrupted`. -/
theorem DataRuns.next_not_interrupted (r : DataRuns) :
    r.next.1 ≠ some (.err (.io .interrupted)) := by
  have hv : ∀ c n, r.readVarBytes c n ≠ .err (.io .interrupted) := by
    intro c n
    unfold DataRuns.readVarBytes
    repeat' split
    all_goals (intro h; cases h)
  have hu : ∀ c n, r.readVarUnsigned c n ≠ .err (.io .interrupted) := by
    intro c n
    unfold DataRuns.readVarUnsigned
    have := hv c n
    cases hh : r.readVarBytes c n with
    | ok a => obtain ⟨x, y⟩ := a; intro h; cases h
    | err e => rw [hh] at this; simpa using this
    | panic p => intro h; cases h
    | diverge => intro h; cases h
  have hs : ∀ c n, r.readVarSigned c n ≠ .err (.io .interrupted) := by
    intro c n
    unfold DataRuns.readVarSigned
    have := hv c n
    cases hh : r.readVarBytes c n with
    | ok a => obtain ⟨x, y⟩ := a; intro h; cases h
    | err e => rw [hh] at this; simpa using this
    | panic p => intro h; cases h
    | diverge => intro h; cases h
  unfold DataRuns.next
  cases r.data.drop r.state.offset with
  | nil => intro h; cases h
  | cons hd cur =>
    dsimp only
    split
    · intro h; cases h
    cases h1 : r.readVarUnsigned cur (hd.toNat % 16) with
    | err e =>
      have := hu cur (hd.toNat % 16)
      rw [h1] at this
      intro h; injection h with h; injection h with h; exact this (by rw [h])
    | panic p => intro h; cases h
    | diverge => intro h; cases h
    | ok a =>
      obtain ⟨cc, cur1⟩ := a
      dsimp only
      split
      · intro h; cases h
      split
      · intro h; cases h
      cases h2 : r.readVarSigned cur1 (hd.toNat / 16) with
      | err e =>
        have := hs cur1 (hd.toNat / 16)
        rw [h2] at this
        intro h; injection h with h; injection h with h; exact this (by rw [h])
      | panic p => intro h; cases h
      | diverge => intro h; cases h
      | ok a =>
        obtain ⟨vcn, cur2⟩ := a
        dsimp only
        split
        · split
          · intro h; cases h
          · rename_i newLcn _
            unfold Lcn.position
            repeat' split
            all_goals (intro h; injection h with h; first | cases h | skip)
            all_goals
              (rename_i hh; revert hh; repeat' split) <;> intro hh <;> cases hh
        · intro h; cases h

theorem NonRes.nextDataRun_not_interrupted (v : NonRes) :
    v.nextDataRun.1 ≠ .err (.io .interrupted) := by
  have := v.runs.next_not_interrupted
  unfold NonRes.nextDataRun
  cases h : v.runs.next with
  | mk a b =>
  rw [h] at this
  rcases a with _ | (_ | _ | _ | _) <;> dsimp only <;> intro h <;> first | cases h | skip
  exact this rfl

theorem readLoop_uses (fuel : Nat) (v : NonRes) (buf : Bytes) (br : Nat) (d : Dev) :
    Uses d (NonRes.readLoop fuel v buf br d).1 (NonRes.readLoop fuel v buf br d).2.2.2 := by
  induction fuel generalizing v buf br d with
  | zero => exact ⟨Nat.le_refl _, fun h => by cases h⟩
  | succ fuel ih =>
    unfold NonRes.readLoop
    split
    · have h := readDataRun_uses v.st buf br d
      cases hr : v.st.readDataRun buf br d with
      | mk res rest =>
      obtain ⟨s', b', n', d'⟩ := rest
      rw [hr] at h
      dsimp only at h
      rcases res with (_ | _) | e | p | _
      · dsimp only
        have hn := NonRes.nextDataRun_not_interrupted { v with st := s' }
        cases hx : NonRes.nextDataRun { v with st := s' } with
        | mk res v' =>
        rw [hx] at hn
        rcases res with (_ | _) | e | p | _ <;> dsimp only
        · exact ⟨h.1, fun h => by cases h⟩
        · exact h.trans (ih _ _ _ _)
        · refine ⟨h.1, fun h => ?_⟩
          injection h with h; subst h; exact absurd rfl hn
        · exact ⟨h.1, fun h => by cases h⟩
        · exact ⟨h.1, fun h => by cases h⟩
      · exact h.trans (ih _ _ _ _)
      · refine ⟨h.1, fun h' => ?_⟩
        injection h' with h'; subst h'; exact h.2 rfl
      · exact ⟨h.1, fun h => by cases h⟩
      · exact ⟨h.1, fun h => by cases h⟩
    · exact Uses.refl_ok _ _

/-- `read_exact` over any reader that stays in `P`, never panics there, keeps the contract of `read`
and uses up the schedule when interrupted: it ends without a panic. -/
theorem readExactLoop_safe {σ : Type} (read : ReadFn (σ × Dev)) (P : σ × Dev → Prop)
    (h : ∀ s buf, P s → (read s buf).1.Safe ∧ P (read s buf).2.1 ∧
      (read s buf).2.2.length = buf.length ∧ (∀ n, (read s buf).1 = .ok n → n ≤ buf.length) ∧
      Uses s.2 (read s buf).1 (read s buf).2.1.2)
    (fuel : Nat) (s : σ × Dev) (done buf : Bytes) (hP : P s)
    (hf : buf.length + s.2.sched.length < fuel) :
    (readExactLoop read fuel s done buf).1.Safe ∧ P (readExactLoop read fuel s done buf).2.1 ∧
      (readExactLoop read fuel s done buf).2.2.length = done.length + buf.length := by
  induction fuel generalizing s done buf with
  | zero => omega
  | succ fuel ih =>
    unfold readExactLoop
    by_cases hb : buf.length = 0
    · rw [if_pos hb]; exact ⟨trivial, hP, List.length_append⟩
    rw [if_neg hb]
    obtain ⟨h1, h2, h3, h4, h5⟩ := h s buf hP
    cases hr : read s buf with
    | mk res rest =>
    obtain ⟨s', buf'⟩ := rest
    rw [hr] at h1 h2 h3 h4 h5
    dsimp only at h1 h2 h3 h4 h5
    cases res with
    | ok n =>
      dsimp only
      split
      · exact ⟨trivial, h2, by dsimp only; rw [List.length_append]; omega⟩
      · have := h4 n rfl
        have := h5.1
        rw [if_pos (by omega)]
        obtain ⟨i1, i2, i3⟩ := ih s' (done ++ buf'.take n) (buf'.drop n) h2
          (by rw [List.length_drop]; omega)
        refine ⟨i1, i2, ?_⟩
        rw [i3, List.length_append, List.length_drop, List.length_take]
        omega
    | err e =>
      dsimp only
      split
      · rename_i he
        subst he
        have := h5.2 rfl
        obtain ⟨i1, i2, i3⟩ := ih s' done buf' h2 (by omega)
        exact ⟨i1, i2, by omega⟩
      · exact ⟨trivial, h2, by dsimp only; rw [List.length_append]; omega⟩
    | panic p => exact h1.elim
    | diverge => exact h1.elim

theorem NonRes.readExact_safe (v : NonRes) (hb : v.Bounded) (buf : Bytes) (d : Dev) :
    (v.readExact buf d).1.Safe ∧ (v.readExact buf d).2.1.1.Bounded ∧
      (v.readExact buf d).2.2.length = buf.length := by
  have key := readExactLoop_safe NonRes.readFn (fun s => s.1.Bounded) (by
    rintro ⟨v, d⟩ buf hb
    have h1 := readLoop_bounded (buf.length + v.data.length + v.runs.data.length + 2) v buf 0 d hb (by omega) (by omega)
    have h2 := readLoop_uses (buf.length + v.data.length + v.runs.data.length + 2) v buf 0 d
    obtain ⟨b, g1, g2, _, _, _, _, g3⟩ :=
      readLoop_contract (buf.length + v.data.length + v.runs.data.length + 2) v buf 0 d (by omega)
    have e : NonRes.readFn (v, d) buf =
      ((v.read buf d).1, ((v.read buf d).2.1, (v.read buf d).2.2.2), (v.read buf d).2.2.1) := rfl
    rw [e]
    dsimp only
    unfold NonRes.read
    refine ⟨h1.1, h1.2, ?_, ?_, h2⟩
    · rw [g2]; exact overwrite_length (by omega)
    · intro n hn; have := g3 n hn; omega)
  have k := key _ (v, d) [] buf hb (Nat.lt_succ_self _)
  simp only [List.length_nil, Nat.zero_add] at k
  exact k

end NT
