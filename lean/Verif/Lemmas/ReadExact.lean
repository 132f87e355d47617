import Verif.Model.ReadExact
import Verif.Lemmas.Bytes

namespace NT

/-- A reader whose `read` delivers the next of its remaining bytes `rest`, as many as fit. -/
def ReadsLike {σ : Type} (read : ReadFn σ) (P : σ → Prop) (rest : σ → Bytes)
    (pos : σ → Nat) : Prop :=
  ∀ s buf, P s → ∃ s',
    read s buf = (.ok ((rest s).take buf.length).length, s',
      (rest s).take buf.length ++ buf.drop ((rest s).take buf.length).length) ∧
    P s' ∧ rest s' = (rest s).drop ((rest s).take buf.length).length ∧
    pos s' = pos s + ((rest s).take buf.length).length

/-- `read_exact` of such a reader fills the buffer, or reports `UnexpectedEof`. -/
theorem readExactLoop_readsLike {σ : Type} {read : ReadFn σ} {P : σ → Prop} {rest : σ → Bytes}
    {pos : σ → Nat} (h : ReadsLike read P rest pos) (fuel : Nat) (s : σ) (done buf : Bytes) (hP : P s)
    (hf : buf.length < fuel) :
    ∃ s', P s' ∧
      readExactLoop read fuel s done buf =
        (if buf.length ≤ (rest s).length then .ok () else .err (.io .unexpectedEof), s',
          done ++ (rest s).take buf.length ++ buf.drop ((rest s).take buf.length).length) ∧
      rest s' = (rest s).drop ((rest s).take buf.length).length ∧
      pos s' = pos s + ((rest s).take buf.length).length := by
  induction fuel generalizing s done buf with
  | zero => omega
  | succ fuel ih =>
    unfold readExactLoop
    by_cases hb : buf.length = 0
    · rw [if_pos hb, if_pos (by omega)]
      have : buf = [] := List.eq_nil_of_length_eq_zero hb
      subst this
      exact ⟨s, hP, by simp, by simp, by simp⟩
    · rw [if_neg hb]
      obtain ⟨s', e, hP', hr, hpos⟩ := h s buf hP
      rw [e]
      dsimp only
      obtain ⟨got, hgot⟩ : ∃ got, got = (rest s).take buf.length := ⟨_, rfl⟩
      rw [← hgot] at hr hpos ⊢
      have hgl : got.length = min buf.length (rest s).length := by rw [hgot, List.length_take]
      by_cases h0 : got.length = 0
      · rw [if_pos h0, if_neg (by omega)]
        exact ⟨s', hP', by simp, hr, hpos⟩
      · rw [if_neg h0, if_pos (by simp)]
        rw [List.take_left, List.drop_left]
        obtain ⟨s2, g1, g2, g3, g4⟩ := ih s' (done ++ got) (buf.drop got.length) hP'
          (by rw [List.length_drop]; omega)
        refine ⟨s2, g1, ?_, ?_, ?_⟩
        · rw [g2, hr, List.length_drop, List.length_drop]
          by_cases hle : buf.length ≤ (rest s).length
          · have : buf.length - got.length = 0 := by omega
            rw [if_pos hle, if_pos (by omega), this]
            simp
          · have e1 : (rest s).drop got.length = [] := by
              rw [List.drop_eq_nil_iff]; omega
            rw [if_neg hle, if_neg (by omega), e1]
            simp
        · rw [g3, hr, List.length_drop, List.drop_drop]
          by_cases hle : buf.length ≤ (rest s).length
          · have : buf.length - got.length = 0 := by omega
            simp [this]
          · have e1 : (rest s).drop got.length = [] := by
              rw [List.drop_eq_nil_iff]; omega
            rw [e1]; simp; omega
        · rw [g4, hpos, hr, List.length_drop, List.length_take, List.length_drop]
          omega

end NT
