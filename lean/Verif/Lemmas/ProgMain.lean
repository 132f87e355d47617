import Verif.Lemmas.ProgShell
import Verif.Model.ShellMain

/-! The main loop of the shell as a program of requests (see `Lemmas/Prog.lean`). -/

namespace NT

theorem Session.run_rep (fuel : Nat) (c : Command) (s : Session) : Rep mk4 (fun d => s.run fuel c d) := by
  unfold Session.run
  cases c with
  | attr w arg =>
    dsimp only
    refine Rep.step (Shell.attr_rep s.shell w arg fuel) ?_
    rintro ⟨x, l⟩
    exact ⟨_, fun d d' _ _ h => by rw [h],
      .done ((shownResult x (l.map .attr)).1, (shownResult x (l.map .attr)).2, s)⟩
  | cd arg =>
    dsimp only
    refine Rep.step (Shell.cd_rep s.shell arg fuel) fun x => ?_
    cases x with
    | ok a => exact ⟨_, fun d d' _ _ h => by rw [h],
        .done (Res.ok (), a.1.toList.map ShellMsg.shown, { s with shell := a.2 })⟩
    | err e => exact ⟨_, fun d d' _ _ h => by rw [h], .done (Res.ok (), [.error (.lib e)], s)⟩
    | panic e => exact ⟨_, fun d d' _ _ h => by rw [h], .done (Res.panic e, [], s)⟩
    | diverge => exact ⟨_, fun d d' _ _ h => by rw [h], .done (Res.diverge, [], s)⟩
  | dir =>
    dsimp only
    refine Rep.step (Shell.dir_rep s.shell fuel) ?_
    rintro ⟨x, l⟩
    cases x with
    | ok a => exact ⟨_, fun d d' _ _ h => by rw [h], .done (Res.ok (), l.map fun e => .entry e.1 e.2, s)⟩
    | err e => exact ⟨_, fun d d' _ _ h => by rw [h],
        .done (Res.ok (), l.map (fun e => .entry e.1 e.2) ++ [.error (.lib e)], s)⟩
    | panic e => exact ⟨_, fun d d' _ _ h => by rw [h], .done (Res.panic e, l.map fun e => .entry e.1 e.2, s)⟩
    | diverge => exact ⟨_, fun d d' _ _ h => by rw [h], .done (Res.diverge, l.map fun e => .entry e.1 e.2, s)⟩
  | exit => exact .done (Res.ok (), [], s)
  | fileinfo arg =>
    dsimp only
    refine Rep.step (Shell.fileinfo_rep s.shell arg fuel) ?_
    rintro ⟨x, l⟩
    exact ⟨_, fun d d' _ _ h => by rw [h],
      .done ((shownResult x (l.map .info)).1, (shownResult x (l.map .info)).2, s)⟩
  | fsinfo =>
    dsimp only
    refine Rep.step (Ntfs.fsinfo_rep s.shell.ntfs) ?_
    rintro ⟨x, l⟩
    cases x with
    | ok a => exact ⟨_, fun d d' _ _ h => by rw [h], .done (Res.ok (), l.map .fs, s)⟩
    | err e => exact ⟨_, fun d d' _ _ h => by rw [h], .done (Res.ok (), l.map .fs ++ [.error (.lib e)], s)⟩
    | panic e => exact ⟨_, fun d d' _ _ h => by rw [h], .done (Res.panic e, l.map .fs, s)⟩
    | diverge => exact ⟨_, fun d d' _ _ h => by rw [h], .done (Res.diverge, l.map .fs, s)⟩
  | get arg =>
    dsimp only
    refine Rep.step (Shell.getShown_rep s.shell arg s.host.blocked fuel) ?_
    rintro ⟨x, n, f⟩
    exact ⟨_, fun d d' _ _ h => by rw [h],
      .done ((shownResult x (n.toList.map fun n => .saving n (outputName (splitStream arg).1 (splitStream arg).2))).1,
        (shownResult x (n.toList.map fun n => .saving n (outputName (splitStream arg).1 (splitStream arg).2))).2,
        { s with host := s.host.write f })⟩
  | help arg => exact .done (Res.ok (), [TermLine.help (helpText arg)], s)
  | nothing => exact .done (Res.ok (), [], s)
  | invalid w => exact .done (Res.ok (), [TermLine.error (.invalidCommand w)], s)

theorem Session.loop_rep (fuel : Nat) (lines : List (Option (List Char))) (s : Session) :
    Rep mk4 (fun d => Session.loop fuel lines s d) := by
  induction lines generalizing s with
  | nil => exact .done (Res.ok (), [TermLine.prompt s.shell.path], s)
  | cons l lines ih =>
    cases l with
    | none => exact .done (Res.panic .unwrap, [TermLine.prompt s.shell.path], s)
    | some line =>
      unfold Session.loop
      refine .ite (fun _ => .done (Res.ok (), [TermLine.prompt s.shell.path], s)) fun _ =>
        .ite (fun _ => .done (Res.ok (), [TermLine.prompt s.shell.path], s)) fun _ => ?_
      refine Rep.step (Session.run_rep fuel (Command.parse line) s) ?_
      rintro ⟨x, out, s'⟩
      cases x with
      | ok u =>
        refine ⟨_, fun d d' _ _ h => by rw [h], ?_⟩
        dsimp only
        refine Rep.step (ih s') ?_
        rintro ⟨x, out', s''⟩
        exact ⟨_, fun d d' _ _ h => by rw [h], .done (x, .prompt s.shell.path :: (out ++ out'), s'')⟩
      | err e => exact ⟨_, fun d d' _ _ h => by rw [h], .done (Res.err e, .prompt s.shell.path :: out, s')⟩
      | panic e => exact ⟨_, fun d d' _ _ h => by rw [h], .done (Res.panic e, .prompt s.shell.path :: out, s')⟩
      | diverge => exact ⟨_, fun d d' _ _ h => by rw [h], .done (Res.diverge, .prompt s.shell.path :: out, s')⟩

theorem shellMain_rep (fuel : Nat) (lines : List (Option (List Char))) (h : Host) :
    Rep mk4 (fun d => shellMain fuel lines h d) := by
  unfold shellMain
  refine Rep.step (Shell.start_rep fuel) fun x => ?_
  cases x with
  | ok sh =>
    refine ⟨_, fun d d' _ _ h => by rw [h], ?_⟩
    dsimp only
    refine Rep.step (Session.loop_rep fuel lines ⟨sh, h⟩) ?_
    rintro ⟨x, out, s⟩
    exact ⟨_, fun d d' _ _ h => by rw [h], .done (x, out, s.host)⟩
  | err e => exact ⟨_, fun d d' _ _ h => by rw [h], .done (Res.err e, [], h)⟩
  | panic e => exact ⟨_, fun d d' _ _ h => by rw [h], .done (Res.panic e, [], h)⟩
  | diverge => exact ⟨_, fun d d' _ _ h => by rw [h], .done (Res.diverge, [], h)⟩

end NT
