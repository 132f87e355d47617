import Verif.Props.C64_Session

/-! C64: the lines of a session one after the other. -/

namespace NT

open Spec

theorem Spec.Typed.unique {line w a w' a' : List Char} (h : Typed line w a) (h' : Typed line w' a') :
    w = w' ∧ a = a' := by
  rw [← C64_typed] at h h'
  rw [h] at h'
  injection h' with h1 h2
  exact ⟨h1, h2⟩

theorem ends_some {t : List Char} : Ends (some t) ↔ t = [] ∨ Command.parse t = .exit := by
  unfold Ends
  constructor
  · rintro (h | h | ⟨t', w, a, h, h1, h2⟩)
    · cases h
    · injection h with h
      exact .inl h
    · injection h with h
      subst h
      right
      rcases h2 with rfl | rfl
      · exact (C64_command _ _).2 ⟨_, _, h1, .exit⟩
      · exact (C64_command _ _).2 ⟨_, _, h1, .quit⟩
  · rintro (rfl | h)
    · exact .inr (.inl rfl)
    · obtain ⟨w, a, h1, h2⟩ := (C64_command _ _).1 h
      cases h2 with
      | exit => exact .inr (.inr ⟨t, _, _, rfl, h1, .inl rfl⟩)
      | quit => exact .inr (.inr ⟨t, _, _, rfl, h1, .inr rfl⟩)

theorem loop_end (fuel : Nat) {l : Option (List Char)} (h : Ends l) (rest : List (Option (List Char)))
    (s : Session) (d : Dev) : Session.loop fuel (l :: rest) s d =
      (if l = none then .panic .unwrap else .ok (), [.prompt s.shell.path], s, d) := by
  cases l with
  | none => rfl
  | some t =>
    unfold Session.loop
    rw [if_neg (by simp : ¬ (some t = none))]
    rcases ends_some.1 h with h | h
    · rw [if_pos h]
    · split
      · rfl
      · first | rfl | rw [if_pos h]

theorem loop_line (fuel : Nat) {t : List Char} (h : ¬ Ends (some t)) (rest : List (Option (List Char)))
    (s : Session) (d : Dev) : Session.loop fuel (some t :: rest) s d =
      match s.run fuel (Command.parse t) d with
      | (.ok (), out, s', d') =>
        match Session.loop fuel rest s' d' with
        | (r, out', s'', d'') => (r, .prompt s.shell.path :: (out ++ out'), s'', d'')
      | (.err e, out, s', d') => (.err e, .prompt s.shell.path :: out, s', d')
      | (.panic p, out, s', d') => (.panic p, .prompt s.shell.path :: out, s', d')
      | (.diverge, out, s', d') => (.diverge, .prompt s.shell.path :: out, s', d') := by
  rw [ends_some, not_or] at h
  rw [Session.loop, if_neg h.1, if_neg h.2]
  generalize s.run fuel (Command.parse t) d = x
  obtain ⟨r, out, s', d'⟩ := x
  cases r <;> rfl

/-- What one command does to the state: only `cd` changes the directory, only `get` the host, nothing shows a
prompt, and an error is never passed on. -/
structure RunKeeps (fuel : Nat) (c : Command) (s : Session) (d : Dev) : Prop where
  noErr : ∀ e, (s.run fuel c d).1 ≠ .err e
  noPrompt : prompts (s.run fuel c d).2.1 = []
  shell : (∀ a, c ≠ .cd a) → (s.run fuel c d).2.2.1.shell = s.shell
  host : (∀ a, c ≠ .get a) → (s.run fuel c d).2.2.1.host = s.host
  refuses : (s.run fuel c d).2.2.1.host.refuses = s.host.refuses

theorem prompts_append (a b : List TermLine) : prompts (a ++ b) = prompts a ++ prompts b := by
  unfold prompts
  exact List.filterMap_append

theorem prompts_map {α : Type} (f : α → TermLine) (l : List α) (h : ∀ x p, f x ≠ .prompt p) :
    prompts (l.map f) = [] := by
  unfold prompts
  rw [List.filterMap_eq_nil_iff]
  intro x hx
  obtain ⟨y, _, rfl⟩ := List.mem_map.1 hx
  have := h y
  cases hy : f y <;> simp_all

theorem ShellMsg.shown_ne (m : ShellMsg) (p : List Char) : m.shown ≠ .prompt p := by
  cases m <;> intro h <;> cases h

theorem prompts_one {x : TermLine} (h : ∀ p, x ≠ .prompt p) : prompts [x] = [] := by
  have := prompts_map (fun x : TermLine => x) [x]
  unfold prompts
  cases x <;> simp_all

theorem shownResult_prompts {α : Type} (r : Res (Except ShellMsg α)) (out : List TermLine) (h : prompts out = []) :
    prompts (shownResult r out).2 = [] ∧ ∀ e, (shownResult r out).1 ≠ .err e := by
  unfold shownResult
  split
  · exact ⟨h, fun e h => by cases h⟩
  · exact ⟨by rw [prompts_append, h, prompts_one (ShellMsg.shown_ne _)]; rfl, fun e h => by cases h⟩
  · exact ⟨by rw [prompts_append, h, prompts_one (fun p h => by cases h)]; rfl, fun e h => by cases h⟩
  · exact ⟨h, fun e h => by cases h⟩
  · exact ⟨h, fun e h => by cases h⟩

theorem Host.write_refuses (h : Host) (f : Option (List Char × Bytes)) : (h.write f).refuses = h.refuses := by
  cases f <;> rfl

theorem Session.run_keeps (fuel : Nat) (c : Command) (s : Session) (d : Dev) : RunKeeps fuel c s d := by
  cases c with
  | attr w a =>
    have hp := fun (r : Res (Except ShellMsg Unit)) l => shownResult_prompts r (l.map .attr) (prompts_map TermLine.attr l (fun x p h => by cases h))
    exact ⟨(hp _ _).2, (hp _ _).1, fun _ => rfl, fun _ => rfl, rfl⟩
  | cd a =>
    have e : ∀ x : Res (Option ShellMsg × Shell) × Dev, s.shell.cd a fuel d = x → RunKeeps fuel (.cd a) s d := by
      rintro ⟨x, d'⟩ hx
      have hr : s.run fuel (.cd a) d = match (x, d') with
        | (.ok (m, sh), d') => (.ok (), m.toList.map ShellMsg.shown, { s with shell := sh }, d')
        | (.err e, d') => (.ok (), [.error (.lib e)], s, d')
        | (.panic p, d') => (.panic p, [], s, d')
        | (.diverge, d') => (.diverge, [], s, d') := by
        rw [← hx]
        rfl
      constructor
      all_goals rw [hr]
      · cases x <;> intro e h <;> cases h
      · cases x with
        | ok y => exact prompts_map _ _ ShellMsg.shown_ne
        | err y => exact prompts_one (fun p h => by cases h)
        | _ => rfl
      · exact fun h => absurd rfl (h a)
      · cases x <;> exact fun _ => rfl
      · cases x <;> rfl
    exact e _ rfl
  | dir =>
    have e : ∀ x : Res Unit × List (Bool × Bytes) × Dev, s.shell.dir fuel d = x → RunKeeps fuel .dir s d := by
      rintro ⟨x, l, d'⟩ hx
      have hp : prompts (l.map fun e => .entry e.1 e.2) = [] := prompts_map _ _ (fun x p h => by cases h)
      have hr : s.run fuel .dir d = match (x, l, d') with
        | (.ok (), l, d') => (.ok (), l.map fun e => .entry e.1 e.2, s, d')
        | (.err e, l, d') => (.ok (), l.map (fun e => .entry e.1 e.2) ++ [.error (.lib e)], s, d')
        | (.panic p, l, d') => (.panic p, l.map fun e => .entry e.1 e.2, s, d')
        | (.diverge, l, d') => (.diverge, l.map fun e => .entry e.1 e.2, s, d') := by
        rw [← hx]
        rfl
      constructor
      all_goals rw [hr]
      · cases x <;> intro e h <;> cases h
      · cases x with
        | err y =>
          dsimp only
          rw [prompts_append, hp, prompts_one (fun p h => by cases h)]
          rfl
        | _ => exact hp
      · cases x <;> exact fun _ => rfl
      · cases x <;> exact fun _ => rfl
      · cases x <;> rfl
    exact e _ rfl
  | exit => exact ⟨fun e h => (by cases h), rfl, fun _ => rfl, fun _ => rfl, rfl⟩
  | fileinfo a =>
    have hp := fun (r : Res (Except ShellMsg Unit)) l => shownResult_prompts r (l.map .info) (prompts_map TermLine.info l (fun x p h => by cases h))
    exact ⟨(hp _ _).2, (hp _ _).1, fun _ => rfl, fun _ => rfl, rfl⟩
  | fsinfo =>
    have e : ∀ x : Res Unit × List FsLine × Dev, s.shell.ntfs.fsinfo d = x → RunKeeps fuel .fsinfo s d := by
      rintro ⟨x, l, d'⟩ hx
      have hp : prompts (l.map .fs) = [] := prompts_map _ _ (fun x p h => by cases h)
      have hr : s.run fuel .fsinfo d = match (x, l, d') with
        | (.ok (), l, d') => (.ok (), l.map .fs, s, d')
        | (.err e, l, d') => (.ok (), l.map .fs ++ [.error (.lib e)], s, d')
        | (.panic p, l, d') => (.panic p, l.map .fs, s, d')
        | (.diverge, l, d') => (.diverge, l.map .fs, s, d') := by
        rw [← hx]
        rfl
      constructor
      all_goals rw [hr]
      · cases x <;> intro e h <;> cases h
      · cases x with
        | err y =>
          dsimp only
          rw [prompts_append, hp, prompts_one (fun p h => by cases h)]
          rfl
        | _ => exact hp
      · cases x <;> exact fun _ => rfl
      · cases x <;> exact fun _ => rfl
      · cases x <;> rfl
    exact e _ rfl
  | get a =>
    have hp := fun (r : Res (Except ShellMsg Nat)) (n : Option Nat) => shownResult_prompts r
      (n.toList.map fun n => .saving n (outputName (splitStream a).1 (splitStream a).2))
      (prompts_map (fun n => TermLine.saving n (outputName (splitStream a).1 (splitStream a).2)) n.toList
        (fun x p h => by cases h))
    exact ⟨(hp _ _).2, (hp _ _).1, fun _ => rfl, fun h => absurd rfl (h a), s.host.write_refuses _⟩
  | help a => exact ⟨fun e h => (by cases h), prompts_one (fun p h => by cases h), fun _ => rfl, fun _ => rfl, rfl⟩
  | nothing => exact ⟨fun e h => (by cases h), rfl, fun _ => rfl, fun _ => rfl, rfl⟩
  | invalid w => exact ⟨fun e h => (by cases h), prompts_one (fun p h => by cases h), fun _ => rfl, fun _ => rfl, rfl⟩

/-- What a `get` shows that has no error. -/
theorem run_get_ok {fuel : Nat} {a : List Char} {s : Session} {d d' : Dev} {n : Nat} {f : Option (List Char × Bytes)}
    (h : s.shell.get a s.host.blocked fuel d = (.ok (.ok n), f, d')) :
    s.run fuel (.get a) d = (.ok (), [.saving n (outputName (splitStream a).1 (splitStream a).2)],
      { s with host := s.host.write f }, d') := by
  unfold Session.run
  dsimp only
  rw [Shell.getShown_ok h]
  rfl

theorem run_get_error {fuel : Nat} {a : List Char} {s : Session} {d d' : Dev} {m : ShellMsg}
    {f : Option (List Char × Bytes)} (h : s.shell.get a s.host.blocked fuel d = (.ok (.error m), f, d')) :
    s.run fuel (.get a) d = (.ok (), [m.shown], { s with host := s.host.write f }, d') := by
  unfold Session.run
  dsimp only
  rw [Shell.getShown_error h]
  rfl

/-- The loop, with the two ways in which it goes on. -/
theorem loop_cases (fuel : Nat) {t : List Char} (h : ¬ Ends (some t)) (rest : List (Option (List Char)))
    (s : Session) (d : Dev) :
    (∃ out s' d', s.run fuel (Command.parse t) d = (.ok (), out, s', d') ∧
      Session.loop fuel (some t :: rest) s d = ((Session.loop fuel rest s' d').1,
        .prompt s.shell.path :: (out ++ (Session.loop fuel rest s' d').2.1),
        (Session.loop fuel rest s' d').2.2)) ∨
    (∃ r out s' d', r ≠ .ok () ∧ (∀ e, r ≠ .err e) ∧ s.run fuel (Command.parse t) d = (r, out, s', d') ∧
      Session.loop fuel (some t :: rest) s d = (r, .prompt s.shell.path :: out, s', d')) := by
  rw [loop_line fuel h]
  have hk := (Session.run_keeps fuel (Command.parse t) s d).noErr
  generalize hg : s.run fuel (Command.parse t) d = x at hk
  obtain ⟨r, out, s', d'⟩ := x
  cases r with
  | ok u =>
    left
    refine ⟨out, s', d', rfl, ?_⟩
    dsimp only
  | err e => exact absurd rfl (hk e)
  | panic e => exact .inr ⟨_, out, s', d', by simp, by simp, rfl, rfl⟩
  | diverge => exact .inr ⟨_, out, s', d', by simp, by simp, rfl, rfl⟩

/-- **C64**: what comes after the line that ends the session has no effect at all. -/
theorem C64_after_end (fuel : Nat) (pre post : List (Option (List Char))) (l : Option (List Char)) (h : Ends l)
    (s : Session) (d : Dev) :
    Session.loop fuel (pre ++ l :: post) s d = Session.loop fuel (pre ++ [l]) s d := by
  induction pre generalizing s d with
  | nil => rw [List.nil_append, List.nil_append, loop_end fuel h, loop_end fuel h]
  | cons x pre ih =>
    rw [List.cons_append, List.cons_append]
    by_cases hx : Ends x
    · rw [loop_end fuel hx, loop_end fuel hx]
    · cases x with
      | none => exact absurd (.inl rfl) hx
      | some t =>
        rw [loop_line fuel hx, loop_line fuel hx]
        generalize s.run fuel (Command.parse t) d = y
        obtain ⟨r, out, s', d'⟩ := y
        cases r with
        | ok u => dsimp only; rw [ih]
        | _ => rfl

/-- **C64**: no error ends a session, whatever the device does: it ends well, or with a panic (or a command
does not come back). -/
theorem C64_no_error_ends (fuel : Nat) (lines : List (Option (List Char))) (s : Session) (d : Dev) (e : Err) :
    (Session.loop fuel lines s d).1 ≠ .err e := by
  induction lines generalizing s d with
  | nil => intro h; cases h
  | cons l rest ih =>
    by_cases hl : Ends l
    · rw [loop_end fuel hl]
      dsimp only
      split <;> intro h <;> cases h
    · cases l with
      | none => exact absurd (.inl rfl) hl
      | some t =>
        rcases loop_cases fuel hl rest s d with ⟨out, s', d', _, h2⟩ | ⟨r, out, s', d', _, h2, _, h4⟩
        · rw [h2]; exact ih s' d'
        · rw [h4]; exact h2 e

/-- **C64**: a session can be cut in two: if the first lines do not end it, what follows is the session of the
other lines from the state that was reached. In particular an error in the first part has no influence on the
second one other than through that state. -/
theorem C64_cut (fuel : Nat) (l1 l2 : List (Option (List Char))) (h : ∀ l ∈ l1, ¬ Ends l) (s s1 : Session)
    (d d1 : Dev) (out : List TermLine) (hr : Session.loop fuel l1 s d = (.ok (), out, s1, d1)) :
    ∃ o, out = o ++ [.prompt s1.shell.path] ∧
      Session.loop fuel (l1 ++ l2) s d = ((Session.loop fuel l2 s1 d1).1,
        o ++ (Session.loop fuel l2 s1 d1).2.1, (Session.loop fuel l2 s1 d1).2.2) := by
  induction l1 generalizing s d out with
  | nil =>
    rw [Session.loop] at hr
    cases hr
    exact ⟨[], rfl, rfl⟩
  | cons l l1 ih =>
    have hl := h l List.mem_cons_self
    cases l with
    | none => exact absurd (.inl rfl) hl
    | some t =>
      rw [loop_line fuel hl] at hr
      rw [List.cons_append, loop_line fuel hl]
      generalize s.run fuel (Command.parse t) d = x at hr ⊢
      obtain ⟨r, out1, s', d'⟩ := x
      cases r with
      | ok u =>
        dsimp only at hr ⊢
        generalize hg : Session.loop fuel l1 s' d' = y at hr
        obtain ⟨r2, out2, s2, d2⟩ := y
        dsimp only at hr
        cases hr
        obtain ⟨o, h1, h2⟩ := ih (fun l hl => h l (List.mem_cons_of_mem _ hl)) s' d' out2 hg
        refine ⟨.prompt s.shell.path :: (out1 ++ o), ?_, ?_⟩
        · rw [h1, List.cons_append, List.append_assoc]
        · rw [h2]
          dsimp only
          rw [List.cons_append, List.append_assoc]
      | err e => cases hr
      | panic e => cases hr
      | diverge => cases hr

end NT
