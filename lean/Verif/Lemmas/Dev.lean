import Verif.Model.Dev
import Verif.Lemmas.Bytes

namespace NT

theorem Dev.NoFail.tail {d : Dev} (h : d.NoFail) {r : Resp} {s : List Resp} (hs : d.sched = r :: s)
    (img : Bytes) (pos : Nat) : Dev.NoFail ⟨img, pos, s⟩ := by
  intro x hx e
  exact h x (by rw [hs]; exact List.mem_cons_of_mem _ hx) e

/-- A device without failures: seeking works. -/
theorem Dev.seekStart_ok (p : Nat) (d : Dev) (h : d.NoFail) :
    ∃ d', Dev.seekStart p d = (.ok (), d') ∧ d'.img = d.img ∧ d'.pos = p ∧ d'.NoFail := by
  unfold Dev.seekStart
  split
  · rename_i e s hs
    exact absurd rfl (h (.fail e) (by simp [hs]) e)
  · rename_i k s hs
    exact ⟨_, rfl, rfl, rfl, h.tail hs _ _⟩
  · rename_i hs
    exact ⟨_, rfl, rfl, rfl, by intro x hx; simp [hs] at hx⟩

/-- A device without failures: reading delivers a nonempty prefix of what is there. -/
theorem Dev.read_ok (n : Nat) (d : Dev) (h : d.NoFail) :
    ∃ k d', Dev.read n d = (.ok ((d.img.drop d.pos).take k), d') ∧ k ≤ n ∧ (0 < n → 0 < k) ∧
      d'.img = d.img ∧ d'.pos = d.pos + ((d.img.drop d.pos).take k).length ∧ d'.NoFail ∧
      d'.sched.length ≤ d.sched.length := by
  unfold Dev.read
  split
  · rename_i e s hs
    exact absurd rfl (h (.fail e) (by simp [hs]) e)
  · rename_i k s hs
    exact ⟨min n (k + 1), _, rfl, by omega, by omega, rfl, rfl, h.tail hs _ _, by simp [hs]⟩
  · rename_i hs
    exact ⟨n, _, rfl, by omega, id, rfl, rfl, by intro x hx; simp [hs] at hx, by simp⟩

/-- Whatever the device does, a read either delivers a prefix of what is there or fails, and the
image does not change. -/
theorem Dev.read_cases (n : Nat) (d : Dev) :
    (∃ k d', Dev.read n d = (.ok ((d.img.drop d.pos).take k), d') ∧ k ≤ n ∧ (0 < n → 0 < k) ∧
      d'.img = d.img ∧ d'.pos = d.pos + ((d.img.drop d.pos).take k).length ∧
      d'.sched = d.sched.tail ) ∨
    (∃ e d', Dev.read n d = (.err (.io e), d') ∧ d'.img = d.img ∧ d'.pos = d.pos ∧
      d.sched = .fail e :: d'.sched) := by
  unfold Dev.read
  split
  · rename_i e s hs
    exact .inr ⟨e, _, rfl, rfl, rfl, hs⟩
  · rename_i k s hs
    exact .inl ⟨min n (k + 1), _, rfl, by omega, by omega, rfl, rfl, by simp [hs]⟩
  · rename_i hs
    exact .inl ⟨n, _, rfl, by omega, id, rfl, rfl, by simp [hs]⟩

theorem Dev.seekStart_cases (p : Nat) (d : Dev) :
    (∃ d', Dev.seekStart p d = (.ok (), d') ∧ d'.img = d.img ∧ d'.pos = p ∧
      d'.sched = d.sched.tail) ∨
    (∃ e d', Dev.seekStart p d = (.err (.io e), d') ∧ d'.img = d.img ∧ d'.pos = d.pos ∧
      d.sched = .fail e :: d'.sched) := by
  unfold Dev.seekStart
  split
  · rename_i e s hs
    exact .inr ⟨e, _, rfl, rfl, rfl, hs⟩
  · rename_i k s hs
    exact .inl ⟨_, rfl, rfl, rfl, by simp [hs]⟩
  · rename_i hs
    exact .inl ⟨_, rfl, rfl, rfl, by simp [hs]⟩

theorem Dev.readExactAux_noFail (fuel n : Nat) (acc : Bytes) (d : Dev) (h : d.NoFail)
    (hf : n < fuel) :
    ∃ d', Dev.readExactAux fuel n acc d =
        (if n = 0 ∨ d.pos + n ≤ d.img.length then .ok (acc ++ (d.img.drop d.pos).take n)
         else .err (.io .unexpectedEof), d') ∧ d'.img = d.img ∧ d'.NoFail := by
  induction fuel generalizing n acc d with
  | zero => omega
  | succ fuel ih =>
    unfold Dev.readExactAux
    by_cases hn : n = 0
    · simp [hn, h]
    · simp only [if_neg hn]
      obtain ⟨k, d1, e1, hk, hk0, himg, hpos, hnf, _⟩ := Dev.read_ok n d h
      have hk0 := hk0 (by omega)
      rw [e1]
      by_cases hb : ((d.img.drop d.pos).take k).length = 0
      · simp only [if_pos hb]
        refine ⟨d1, ?_, himg, hnf⟩
        rw [if_neg]
        simp at hb
        omega
      · simp only [if_neg hb]
        obtain ⟨d2, e2, h2, h3⟩ := ih (n - ((d.img.drop d.pos).take k).length)
          (acc ++ (d.img.drop d.pos).take k) d1 hnf (by omega)
        refine ⟨d2, ?_, by rw [h2, himg], h3⟩
        rw [e2, himg, hpos]
        simp only [List.length_take, List.length_drop] at *
        by_cases hc : d.pos + n ≤ d.img.length
        · rw [if_pos (by omega), if_pos (by omega)]
          have hmin : min k (d.img.length - d.pos) = k := by omega
          rw [hmin, List.append_assoc]
          congr 3
          have : n = k + (n - k) := by omega
          conv => rhs; rw [this]
          rw [List.take_add, List.drop_drop]
        · rw [if_neg (by omega), if_neg (by omega)]

/-- A device without failures: `read_exact` delivers exactly the bytes at the position, or reports
`UnexpectedEof` when there are too few. -/
theorem Dev.readExact_noFail (n : Nat) (d : Dev) (h : d.NoFail) :
    ∃ d', Dev.readExact n d =
        (if n = 0 ∨ d.pos + n ≤ d.img.length then .ok ((d.img.drop d.pos).take n)
         else .err (.io .unexpectedEof), d') ∧ d'.img = d.img ∧ d'.NoFail := by
  have := Dev.readExactAux_noFail (n + d.sched.length + 1) n [] d h (by omega)
  simpa [Dev.readExact] using this

theorem Dev.readExactAux_any (fuel n : Nat) (acc : Bytes) (d : Dev)
    (hf : n + d.sched.length < fuel) :
    ∃ d', d'.img = d.img ∧
      ((Dev.readExactAux fuel n acc d = (.ok (acc ++ (d.img.drop d.pos).take n), d') ∧
          (n = 0 ∨ d.pos + n ≤ d.img.length)) ∨
       ∃ e, Dev.readExactAux fuel n acc d = (.err (.io e), d')) := by
  induction fuel generalizing n acc d with
  | zero => omega
  | succ fuel ih =>
    unfold Dev.readExactAux
    by_cases hn : n = 0
    · exact ⟨d, rfl, .inl (by simp [hn])⟩
    · simp only [if_neg hn]
      rcases Dev.read_cases n d with ⟨k, d1, e1, hk, hk0, himg, hpos, hs⟩ | ⟨e, d1, e1, himg, hpos, hs⟩
      · rw [e1]
        by_cases hb : ((d.img.drop d.pos).take k).length = 0
        · simp only [if_pos hb]
          exact ⟨d1, himg, .inr ⟨_, rfl⟩⟩
        · simp only [if_neg hb]
          obtain ⟨d2, h2, h3⟩ := ih (n - ((d.img.drop d.pos).take k).length)
            (acc ++ (d.img.drop d.pos).take k) d1 (by rw [hs, List.length_tail]; omega)
          refine ⟨d2, by rw [h2, himg], ?_⟩
          rcases h3 with ⟨e2, h3⟩ | ⟨e, e2⟩
          · left
            rw [himg, hpos] at h3 e2
            rw [e2]
            simp only [List.length_take, List.length_drop] at *
            have hc : d.pos + n ≤ d.img.length := by omega
            refine ⟨?_, .inr hc⟩
            have hmin : min k (d.img.length - d.pos) = k := by omega
            rw [hmin, List.append_assoc]
            congr 3
            have : n = k + (n - k) := by omega
            conv => rhs; rw [this]
            rw [List.take_add, List.drop_drop]
          · exact .inr ⟨e, e2⟩
      · rw [e1]
        by_cases he : e = .interrupted
        · subst he
          obtain ⟨d2, h2, h3⟩ := ih n acc d1 (by rw [hs] at hf; simp at hf; omega)
          rw [himg, hpos] at h3
          exact ⟨d2, by rw [h2, himg], h3⟩
        · refine ⟨d1, himg, .inr ⟨e, ?_⟩⟩
          cases e <;> simp_all

/-- Whatever the device does, `read_exact` delivers exactly the bytes at the position or an I/O
error; it always ends. -/
theorem Dev.readExact_any (n : Nat) (d : Dev) :
    ∃ d', d'.img = d.img ∧
      ((Dev.readExact n d = (.ok ((d.img.drop d.pos).take n), d') ∧
          (n = 0 ∨ d.pos + n ≤ d.img.length)) ∨
       ∃ e, Dev.readExact n d = (.err (.io e), d')) := by
  have := Dev.readExactAux_any (n + d.sched.length + 1) n [] d (by omega)
  simpa [Dev.readExact] using this

theorem Dev.readExact_ne_diverge (n : Nat) (d : Dev) : (Dev.readExact n d).1 ≠ .diverge := by
  obtain ⟨d', _, ⟨h, _⟩ | ⟨e, h⟩⟩ := Dev.readExact_any n d <;> rw [h] <;> simp

end NT
