import Verif.Props.C08_DataRuns

/-! C10, continued: what the calls after `LcnTooBig` report. -/

namespace NT

open Spec

theorem DataRuns.next_tooBig (r r' : DataRuns) (L : Nat) (hp : r.state.previousLcn < U64)
    (hcs : r.state.previousLcn * r.clusterSize < U64)
    (h : r.next = (some (.err (.lcnTooBig L)), r')) :
    r' = { r with state := { r.state with previousLcn := L } } ∧ r.state.previousLcn < L ∧ L < U64 ∧
      U64 ≤ L * r.clusterSize ∧
      ∀ l, l < U64 → U64 ≤ l * r.clusterSize →
        DataRuns.next { r with state := { r.state with previousLcn := l } } =
          if l + (L - r.state.previousLcn) < U64 then
            (some (.err (.lcnTooBig (l + (L - r.state.previousLcn)))),
              { r with state := { r.state with previousLcn := l + (L - r.state.previousLcn) } })
          else
            (some (.err (.invalidVcnInDataRunHeader r.pos
              ((L - r.state.previousLcn : Nat) : Int) l)),
              { r with state := { r.state with previousLcn := l } }) := by
  cases hd : r.data.drop r.state.offset with
  | nil => rw [C09_exact_at_end r hd] at h; cases h
  | cons hb c =>
    obtain ⟨cb, ecb⟩ : ∃ cb, cb = hb.toNat % 16 := ⟨_, rfl⟩
    obtain ⟨lb, elb⟩ : ∃ lb, lb = hb.toNat / 16 := ⟨_, rfl⟩
    obtain ⟨count, ecount⟩ : ∃ n, n = leNat (c.take cb) := ⟨_, rfl⟩
    obtain ⟨delta, edelta⟩ : ∃ z, z = signedLE ((c.drop cb).take lb) := ⟨_, rfl⟩
    obtain ⟨lcn, elcn⟩ : ∃ z, z = (r.state.previousLcn : Int) + delta := ⟨_, rfl⟩
    have hn := C09_exact r hb c hd hp cb lb count _ delta lcn ecb elb ecount edelta elcn rfl
    have hn2 := fun l hl => C09_exact { r with state := { r.state with previousLcn := l } } hb c hd hl
      cb lb count _ delta _ ecb elb ecount edelta rfl rfl
    rw [h] at hn
    by_cases h0 : hb = 0
    · rw [if_pos h0] at hn; cases hn
    rw [if_neg h0] at hn
    by_cases h1 : 8 < cb
    · rw [if_pos h1] at hn; cases hn
    rw [if_neg h1] at hn
    by_cases h2 : c.length < cb
    · rw [if_pos h2] at hn; cases hn
    rw [if_neg h2] at hn
    by_cases h3 : count = 0 ∨ U64 ≤ count * r.clusterSize
    · rw [if_pos h3] at hn; cases hn
    rw [if_neg h3] at hn
    by_cases h4 : 8 < lb
    · rw [if_pos h4] at hn; cases hn
    rw [if_neg h4] at hn
    by_cases h5 : c.length < cb + lb
    · rw [if_pos h5] at hn; cases hn
    rw [if_neg h5] at hn
    by_cases h6 : delta = 0
    · rw [if_pos h6] at hn; cases hn
    rw [if_neg h6] at hn
    by_cases h7 : lcn < 0 ∨ U64 ≤ lcn
    · rw [if_pos h7] at hn; cases hn
    rw [if_neg h7] at hn
    by_cases h8 : U64 ≤ lcn.toNat * r.clusterSize
    case neg => rw [if_neg h8] at hn; cases hn
    rw [if_pos h8] at hn
    have hpos : 0 < delta := by
      by_cases hd0 : 0 ≤ delta
      · omega
      · have : lcn.toNat ≤ r.state.previousLcn := by omega
        have := Nat.mul_le_mul_right r.clusterSize this
        omega
    injection hn with q1 q2
    injection q1 with q1
    injection q1 with q1
    injection q1 with q1
    subst q1
    refine ⟨q2, by omega, by omega, h8, ?_⟩
    intro l hl hlc
    have hn2 := hn2 l hl
    dsimp only at hn2
    rw [if_neg h0, if_neg h1, if_neg h2, if_neg h3, if_neg h4, if_neg h5, if_neg h6] at hn2
    have e1 : ((lcn.toNat - r.state.previousLcn : Nat) : Int) = delta := by omega
    rw [e1]
    by_cases g7 : ((l : Int) + delta < 0 ∨ U64 ≤ (l : Int) + delta)
    · rw [if_pos g7] at hn2
      rw [if_neg (by omega), hn2]
      rfl
    · rw [if_neg g7] at hn2
      have e2 : ((l : Int) + delta).toNat = l + (lcn.toNat - r.state.previousLcn) := by omega
      have hge : l * r.clusterSize ≤ ((l : Int) + delta).toNat * r.clusterSize :=
        Nat.mul_le_mul_right _ (by omega)
      rw [if_pos (by omega), e2] at hn2
      rw [if_pos (by omega), hn2]

/-- The error of the `i`-th call after a first error about the LCN `L`, which is `step` above the LCN of the
run before: the LCN grows by `step` with every call as long as it has 64 bits; then the calls report
that it cannot grow any more. -/
def Spec.errorAfter (pos : Pos) (L step : Nat) (i : Nat) : Err :=
  if L + (i + 1) * step < U64 then .lcnTooBig (L + (i + 1) * step)
  else .invalidVcnInDataRunHeader pos step (L + (U64 - 1 - L) / step * step)

theorem div_step (L s : Nat) (hs : 0 < s) (hL : L < U64) (h : L + s < U64) :
    L + s + (U64 - 1 - (L + s)) / s * s = L + (U64 - 1 - L) / s * s := by
  have e : U64 - 1 - L = U64 - 1 - (L + s) + s := by omega
  rw [e, Nat.add_div_right _ hs, Nat.succ_mul]
  omega

/-- C10, `LcnTooBig` exactly: what any number of calls after this error report. The errors are different
ones; the iterator never yields a run. -/
theorem C10_too_big_partial (r r' : DataRuns) (L : Nat) (hp : r.state.previousLcn < U64)
    (hcs : r.state.previousLcn * r.clusterSize < U64)
    (h : r.next = (some (.err (.lcnTooBig L)), r')) (n : Nat) :
    r.state.previousLcn < L ∧ L < U64 ∧
    r'.calls n = (List.range n).map (fun i =>
      some (.err (Spec.errorAfter r.pos L (L - r.state.previousLcn) i))) := by
  obtain ⟨e, hlt, hL, hbig, hnext⟩ := DataRuns.next_tooBig r r' L hp hcs h
  refine ⟨hlt, hL, ?_⟩
  subst e
  obtain ⟨s, es⟩ : ∃ s, s = L - r.state.previousLcn := ⟨_, rfl⟩
  have hs : 0 < s := by omega
  rw [← es] at hnext ⊢
  clear h hlt es
  have go : ∀ n l, l < U64 → U64 ≤ l * r.clusterSize →
      DataRuns.calls n { r with state := { r.state with previousLcn := l } } =
        (List.range n).map (fun i => some (.err (Spec.errorAfter r.pos l s i))) := by
    intro n
    induction n with
    | zero => intro l _ _; rfl
    | succ n ih =>
      intro l h1 h2
      simp only [DataRuns.calls]
      rw [hnext l h1 h2, List.range_succ_eq_map, List.map_cons, List.map_map]
      by_cases hlt : l + s < U64
      · rw [if_pos hlt]
        dsimp only
        have hge : l * r.clusterSize ≤ (l + s) * r.clusterSize := Nat.mul_le_mul_right _ (by omega)
        rw [ih (l + s) hlt (by omega)]
        congr 1
        · simp only [Spec.errorAfter, Nat.zero_add, Nat.one_mul]
          rw [if_pos hlt]
        · apply List.map_congr_left
          intro i _
          simp only [Function.comp, Spec.errorAfter]
          have e1 : l + s + (i + 1) * s = l + (i.succ + 1) * s := by
            rw [Nat.succ_eq_add_one, Nat.succ_mul (i + 1)]; omega
          rw [e1, div_step l s hs h1 hlt]
      · rw [if_neg hlt]
        dsimp only
        rw [ih l h1 h2]
        have hdiv : (U64 - 1 - l) / s = 0 := Nat.div_eq_of_lt (by omega)
        have hall : ∀ i, Spec.errorAfter r.pos l s i = .invalidVcnInDataRunHeader r.pos s l := by
          intro i
          have : s ≤ (i + 1) * s := Nat.le_mul_of_pos_left _ (by omega)
          simp only [Spec.errorAfter]
          rw [if_neg (by omega), hdiv, Nat.zero_mul, Nat.add_zero]
        congr 1
        · rw [hall]
        · apply List.map_congr_left
          intro i _
          simp only [Function.comp, hall]
  exact go n L hL hbig

/-- The witness of `C10_negation`: all LCNs that are reported, one after the other. -/
example : (DataRuns.new 4096 [0x81, 1, 0, 0, 0, 0, 0, 0, 0x10, 0] none).next.1 =
      some (.err (.lcnTooBig (2 ^ 52))) ∧
    ((DataRuns.new 4096 [0x81, 1, 0, 0, 0, 0, 0, 0, 0x10, 0] none).next.2.calls 3) =
      [some (.err (.lcnTooBig (2 * 2 ^ 52))), some (.err (.lcnTooBig (3 * 2 ^ 52))),
        some (.err (.lcnTooBig (4 * 2 ^ 52)))] := by decide

/-- Both kinds of errors occur. -/
example : ((DataRuns.new 4096 [0x81, 1, 0, 0, 0, 0, 0, 0, 0, 0x60] (some 7)).calls 4) =
      [some (.err (.lcnTooBig (6 * 2 ^ 60))), some (.err (.lcnTooBig (12 * 2 ^ 60))),
        some (.err (.invalidVcnInDataRunHeader (some 7) (6 * 2 ^ 60) (12 * 2 ^ 60))),
        some (.err (.invalidVcnInDataRunHeader (some 7) (6 * 2 ^ 60) (12 * 2 ^ 60)))] := by decide

/-- `C10_too_big_partial` on the first of these. -/
example := C10_too_big_partial (DataRuns.new 4096 [0x81, 1, 0, 0, 0, 0, 0, 0, 0x10, 0] none) _ (2 ^ 52) (by decide) (by decide) rfl 3

end NT
