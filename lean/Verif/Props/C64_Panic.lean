import Verif.Props.C64_Loop

/-! C64: a panic in a command is the end of the session. -/

namespace NT

open Spec

namespace Spec

/-- The command typed in the line panics with `p`, with `out` on the terminal at that moment. -/
inductive Crashes (fuel : Nat) (s : Session) (d : Dev) (line : List Char) : Panic → List TermLine → Prop
  | attr {a p l d'} : Typed line "attr".toList a → s.shell.attr false a fuel d = (.panic p, l, d') →
      Crashes fuel s d line p (l.map .attr)
  | attrRuns {a p l d'} : Typed line "attr_runs".toList a → s.shell.attr true a fuel d = (.panic p, l, d') →
      Crashes fuel s d line p (l.map .attr)
  | cd {a p d'} : Typed line "cd".toList a → s.shell.cd a fuel d = (.panic p, d') → Crashes fuel s d line p []
  | dir {a p l d'} : Typed line "dir".toList a → s.shell.dir fuel d = (.panic p, l, d') →
      Crashes fuel s d line p (l.map fun e => .entry e.1 e.2)
  | fileinfo {a p l d'} : Typed line "fileinfo".toList a → s.shell.fileinfo a fuel d = (.panic p, l, d') →
      Crashes fuel s d line p (l.map .info)
  | fsinfo {a p l d'} : Typed line "fsinfo".toList a → s.shell.ntfs.fsinfo d = (.panic p, l, d') →
      Crashes fuel s d line p (l.map .fs)
  | get {a p n f d'} : Typed line "get".toList a →
      s.shell.getShown a s.host.blocked fuel d = (.panic p, n, f, d') →
      Crashes fuel s d line p (n.toList.map fun n => .saving n (outputName (splitStream a).1 (splitStream a).2))

end Spec

theorem shownResult_panic {α : Type} (r : Res (Except ShellMsg α)) (out : List TermLine) (p : Panic) :
    (shownResult r out).1 = .panic p ↔ r = .panic p := by
  unfold shownResult
  split <;> simp

theorem shownResult_out {α : Type} (out : List TermLine) (p : Panic) :
    (shownResult (.panic p : Res (Except ShellMsg α)) out).2 = out := rfl

/-- A command panics exactly when the function that it calls does. -/
theorem run_panic (fuel : Nat) (s : Session) (d : Dev) (line : List Char) (p : Panic) (out : List TermLine) :
    ((s.run fuel (Command.parse line) d).1 = .panic p ∧ (s.run fuel (Command.parse line) d).2.1 = out) ↔
      Crashes fuel s d line p out := by
  constructor
  · generalize hc : Command.parse line = c
    obtain ⟨w, a, h1, h2⟩ := (C64_command _ _).1 hc
    rintro ⟨h, ho⟩
    cases h2 with
    | attr =>
      unfold Session.run at h ho
      dsimp only at h ho
      generalize hg : s.shell.attr false a fuel d = x at h ho
      obtain ⟨r, l, d'⟩ := x
      have := (shownResult_panic _ _ _).1 h
      subst this
      subst ho
      exact .attr h1 hg
    | attrRuns =>
      unfold Session.run at h ho
      dsimp only at h ho
      generalize hg : s.shell.attr true a fuel d = x at h ho
      obtain ⟨r, l, d'⟩ := x
      have := (shownResult_panic _ _ _).1 h
      subst this
      subst ho
      exact .attrRuns h1 hg
    | cd =>
      unfold Session.run at h ho
      dsimp only at h ho
      generalize hg : s.shell.cd a fuel d = x at h ho
      obtain ⟨r, d'⟩ := x
      cases r with
      | ok v => cases h
      | err e => cases h
      | diverge => cases h
      | panic q =>
        cases h
        subst ho
        exact .cd h1 hg
    | dir =>
      unfold Session.run at h ho
      dsimp only at h ho
      generalize hg : s.shell.dir fuel d = x at h ho
      obtain ⟨r, l, d'⟩ := x
      cases r with
      | ok v => cases h
      | err e => cases h
      | diverge => cases h
      | panic q =>
        cases h
        subst ho
        exact .dir h1 hg
    | exit => cases h
    | quit => cases h
    | fileinfo =>
      unfold Session.run at h ho
      dsimp only at h ho
      generalize hg : s.shell.fileinfo a fuel d = x at h ho
      obtain ⟨r, l, d'⟩ := x
      have := (shownResult_panic _ _ _).1 h
      subst this
      subst ho
      exact .fileinfo h1 hg
    | fsinfo =>
      unfold Session.run at h ho
      dsimp only at h ho
      generalize hg : s.shell.ntfs.fsinfo d = x at h ho
      obtain ⟨r, l, d'⟩ := x
      cases r with
      | ok v => cases h
      | err e => cases h
      | diverge => cases h
      | panic q =>
        cases h
        subst ho
        exact .fsinfo h1 hg
    | get =>
      unfold Session.run at h ho
      dsimp only at h ho
      generalize hg : s.shell.getShown a s.host.blocked fuel d = x at h ho
      obtain ⟨r, n, f, d'⟩ := x
      have := (shownResult_panic _ _ _).1 h
      subst this
      subst ho
      exact .get h1 hg
    | help => cases h
    | nothing => cases h
    | other _ => cases h
  · intro h
    cases h with
    | attr h1 hg =>
      rw [(C64_command _ _).2 ⟨_, _, h1, .attr⟩]
      unfold Session.run
      dsimp only
      rw [hg]
      exact ⟨rfl, rfl⟩
    | attrRuns h1 hg =>
      rw [(C64_command _ _).2 ⟨_, _, h1, .attrRuns⟩]
      unfold Session.run
      dsimp only
      rw [hg]
      exact ⟨rfl, rfl⟩
    | cd h1 hg =>
      rw [(C64_command _ _).2 ⟨_, _, h1, .cd⟩]
      unfold Session.run
      dsimp only
      rw [hg]
      exact ⟨rfl, rfl⟩
    | dir h1 hg =>
      rw [(C64_command _ _).2 ⟨_, _, h1, .dir⟩]
      unfold Session.run
      dsimp only
      rw [hg]
      exact ⟨rfl, rfl⟩
    | fileinfo h1 hg =>
      rw [(C64_command _ _).2 ⟨_, _, h1, .fileinfo⟩]
      unfold Session.run
      dsimp only
      rw [hg]
      exact ⟨rfl, rfl⟩
    | fsinfo h1 hg =>
      rw [(C64_command _ _).2 ⟨_, _, h1, .fsinfo⟩]
      unfold Session.run
      dsimp only
      rw [hg]
      exact ⟨rfl, rfl⟩
    | get h1 hg =>
      rw [(C64_command _ _).2 ⟨_, _, h1, .get⟩]
      unfold Session.run
      dsimp only
      rw [hg]
      exact ⟨rfl, rfl⟩

/-- A line whose command panics is not one that ends the session. -/
theorem Spec.Crashes.not_ends {fuel : Nat} {s : Session} {d : Dev} {line : List Char} {p : Panic}
    {out : List TermLine} (h : Crashes fuel s d line p out) : ¬ Ends (some line) := by
  have hr := (run_panic fuel s d line p out).2 h
  rw [ends_some]
  rintro (rfl | h')
  · cases hr.1
  · rw [h'] at hr
    cases hr.1

/-- **C64**: if a command panics, so does the program: what the command had shown until then stays on the terminal
after the prompt, and the other lines are not executed. -/
theorem C64_panic_ends (fuel : Nat) (line : List Char) (rest : List (Option (List Char))) (s : Session) (d : Dev)
    {p : Panic} {out : List TermLine} (h : Crashes fuel s d line p out) :
    (Session.loop fuel (some line :: rest) s d).1 = .panic p ∧
      (Session.loop fuel (some line :: rest) s d).2.1 = .prompt s.shell.path :: out ∧
      Session.loop fuel (some line :: rest) s d = Session.loop fuel [some line] s d := by
  obtain ⟨h1, h2⟩ := (run_panic fuel s d line p out).2 h
  rw [loop_line fuel h.not_ends, loop_line fuel h.not_ends]
  generalize s.run fuel (Command.parse line) d = x at h1 h2
  obtain ⟨r, o, s', d'⟩ := x
  cases h1
  cases h2
  exact ⟨rfl, rfl, rfl⟩

/-- **C64**: the only panics of a session are those of the commands and a line that cannot be read. -/
theorem C64_panic_from (fuel : Nat) (lines : List (Option (List Char))) (s : Session) (d : Dev) (p : Panic)
    (h : (Session.loop fuel lines s d).1 = .panic p) :
    ∃ pre l rest s' d', lines = pre ++ l :: rest ∧ (∀ x ∈ pre, ¬ Ends x) ∧
      (Session.loop fuel pre s d).1 = .ok () ∧ (Session.loop fuel pre s d).2.2 = (s', d') ∧
      ((l = none ∧ p = .unwrap) ∨ ∃ line out, l = some line ∧ Crashes fuel s' d' line p out) := by
  induction lines generalizing s d with
  | nil => cases h
  | cons l rest ih =>
    by_cases hl : Ends l
    · rw [loop_end fuel hl] at h
      dsimp only at h
      split at h
      · next hn =>
        cases h
        exact ⟨[], l, rest, s, d, rfl, by simp, rfl, rfl, .inl ⟨hn, rfl⟩⟩
      · cases h
    · cases l with
      | none => exact absurd (.inl rfl) hl
      | some t =>
        rcases loop_cases fuel hl rest s d with ⟨out, s', d', h1, h2⟩ | ⟨r, out, s', d', _, _, h3, h4⟩
        · rw [h2] at h
          obtain ⟨pre, l, rest', s2, d2, e1, e2, e3, e4, e5⟩ := ih s' d' h
          refine ⟨some t :: pre, l, rest', s2, d2, by rw [e1]; rfl, ?_, ?_, ?_, e5⟩
          · intro x hx
            rcases List.mem_cons.1 hx with rfl | hx
            · exact hl
            · exact e2 x hx
          · rw [loop_line fuel hl, h1]
            exact e3
          · rw [loop_line fuel hl, h1]
            exact e4
        · rw [h4] at h
          refine ⟨[], some t, rest, s, d, rfl, by simp, rfl, rfl, .inr ⟨t, out, rfl, ?_⟩⟩
          exact (run_panic fuel s d t p out).1 ⟨by rw [h3]; exact h, by rw [h3]⟩

/-- Without a current directory (C57) `attr` panics: the prompt is the last thing that is shown. -/
example (path : List Char) (ntfs : Ntfs) (host : Host) (d : Dev) (rest : List (Option (List Char))) :
    Crashes 5 ⟨⟨[], path, ntfs⟩, host⟩ d "attr x\n".toList .unwrap [] ∧
      (Session.loop 5 (some "attr x\n".toList :: rest) ⟨⟨[], path, ntfs⟩, host⟩ d).2.1 = [.prompt path] := by
  have h : Crashes 5 ⟨⟨[], path, ntfs⟩, host⟩ d "attr x\n".toList .unwrap [] :=
    .attr (a := "x".toList) (l := []) (d' := d) ((C64_typed _ _ _).1 (by decide)) rfl
  exact ⟨h, (C64_panic_ends 5 _ rest _ d h).2.1⟩

example (path : List Char) (ntfs : Ntfs) (host : Host) (d : Dev) :=
  C64_panic_from 5 [some "attr x\n".toList] ⟨⟨[], path, ntfs⟩, host⟩ d .unwrap rfl

end NT
