import Verif.Model.Shell

/-! `get` of the shell without what it announces. -/

namespace NT

theorem Shell.get_eq (s : Shell) (arg : List Char) (exists' : List Char → Bool) (fuel : Nat) (d : Dev) :
    s.get arg exists' fuel d =
      if exists' (outputName (splitStream arg).1 (splitStream arg).2) then
        (.ok (.error (.outputExists (outputName (splitStream arg).1 (splitStream arg).2))), none, d)
      else
        match s.openData (splitStream arg).1 (splitStream arg).2 fuel d with
        | (.ok (.error m), d') =>
          (.ok (.error m), some (outputName (splitStream arg).1 (splitStream arg).2, []), d')
        | (.ok (.ok v), d') =>
          match copyLoop Val.readFn fuel (v, d') (List.replicate 4096 0) [] with
          | (.ok (), (_, d2), b) =>
            (.ok (.ok v.len), some (outputName (splitStream arg).1 (splitStream arg).2, b), d2)
          | (.err e, (_, d2), b) => (.err e, some (outputName (splitStream arg).1 (splitStream arg).2, b), d2)
          | (.panic p, (_, d2), b) => (.panic p, some (outputName (splitStream arg).1 (splitStream arg).2, b), d2)
          | (.diverge, (_, d2), b) => (.diverge, some (outputName (splitStream arg).1 (splitStream arg).2, b), d2)
        | (.err e, d') => (.err e, some (outputName (splitStream arg).1 (splitStream arg).2, []), d')
        | (.panic p, d') => (.panic p, some (outputName (splitStream arg).1 (splitStream arg).2, []), d')
        | (.diverge, d') => (.diverge, some (outputName (splitStream arg).1 (splitStream arg).2, []), d') := by
  unfold Shell.get Shell.getShown
  dsimp only
  split
  · rfl
  · generalize s.openData (splitStream arg).1 (splitStream arg).2 fuel d = x
    obtain ⟨(m | v) | e | e | _, d1⟩ := x
    · rfl
    · dsimp only
      generalize copyLoop Val.readFn fuel (v, d1) (List.replicate 4096 0) [] = y
      obtain ⟨_ | _ | _ | _, ⟨v', d2⟩, b⟩ := y <;> rfl
    all_goals rfl

/-- Exactly a successful `get` has announced the size that it returns; one that ends with a message of the shell has
announced nothing. -/
theorem Shell.getShown_announced (s : Shell) (arg : List Char) (exists' : List Char → Bool) (fuel : Nat) (d : Dev) :
    (∀ n, (s.getShown arg exists' fuel d).1 = .ok (.ok n) → (s.getShown arg exists' fuel d).2.1 = some n) ∧
    (∀ m, (s.getShown arg exists' fuel d).1 = .ok (.error m) → (s.getShown arg exists' fuel d).2.1 = none) := by
  unfold Shell.getShown
  dsimp only
  split
  · exact ⟨fun n h => (by cases h), fun m h => rfl⟩
  · generalize s.openData (splitStream arg).1 (splitStream arg).2 fuel d = x
    obtain ⟨(m | v) | e | e | _, d1⟩ := x
    · exact ⟨fun n h => (by cases h), fun m h => rfl⟩
    · dsimp only
      generalize copyLoop Val.readFn fuel (v, d1) (List.replicate 4096 0) [] = y
      obtain ⟨_ | _ | _ | _, ⟨v', d2⟩, b⟩ := y
      · exact ⟨fun n h => (by cases h; rfl), fun m h => by cases h⟩
      all_goals exact ⟨fun n h => (by cases h), fun m h => by cases h⟩
    all_goals exact ⟨fun n h => (by cases h), fun m h => by cases h⟩

theorem Shell.getShown_ok {s : Shell} {arg : List Char} {exists' : List Char → Bool} {fuel : Nat} {d d' : Dev}
    {n : Nat} {f : Option (List Char × Bytes)} (h : s.get arg exists' fuel d = (.ok (.ok n), f, d')) :
    s.getShown arg exists' fuel d = (.ok (.ok n), some n, f, d') := by
  have ha := (s.getShown_announced arg exists' fuel d).1 n
  unfold Shell.get at h
  generalize s.getShown arg exists' fuel d = x at h ha ⊢
  obtain ⟨r, m, g, d1⟩ := x
  cases h
  rw [show m = some n from ha rfl]

theorem Shell.getShown_error {s : Shell} {arg : List Char} {exists' : List Char → Bool} {fuel : Nat} {d d' : Dev}
    {m : ShellMsg} {f : Option (List Char × Bytes)} (h : s.get arg exists' fuel d = (.ok (.error m), f, d')) :
    s.getShown arg exists' fuel d = (.ok (.error m), none, f, d') := by
  have ha := (s.getShown_announced arg exists' fuel d).2 m
  unfold Shell.get at h
  generalize s.getShown arg exists' fuel d = x at h ha ⊢
  obtain ⟨r, k, g, d1⟩ := x
  cases h
  rw [show k = none from ha rfl]

theorem Shell.getShown_err {s : Shell} {arg : List Char} {exists' : List Char → Bool} {fuel : Nat} {d d' : Dev}
    {e : Err} {f : Option (List Char × Bytes)} (h : s.get arg exists' fuel d = (.err e, f, d')) :
    ∃ n, s.getShown arg exists' fuel d = (.err e, n, f, d') := by
  unfold Shell.get at h
  generalize s.getShown arg exists' fuel d = x at h ⊢
  obtain ⟨r, k, g, d1⟩ := x
  cases h
  exact ⟨k, rfl⟩

end NT
