import Verif.Model.ShellAttr

/-! The main loop of the example shell (`examples/ntfs-shell/main.rs`): one command after the other, with what
is shown on the terminal and the files that `get` leaves on the host. -/

namespace NT

/-- `examples/ntfs-shell/main.rs:543-606`: the text that `help` prints. -/
inductive HelpText
  | attr         -- main.rs:544-550
  | attrRuns     -- main.rs:551-557
  | cd           -- main.rs:558-564
  | dir          -- main.rs:565-571
  | fileinfo     -- main.rs:572-577
  | get          -- main.rs:578-588
  | commands     -- main.rs:589-605
  deriving DecidableEq, Repr

/-- `examples/ntfs-shell/main.rs:542-609`, `help`: which text is printed. Simplified: the texts are left
out, and so is `help_file` (main.rs:611-624), which prints the end of some of them. -/
def helpText (arg : List Char) : HelpText :=
  if arg = "attr".toList then .attr
  else if arg = "attr_runs".toList then .attrRuns
  else if arg = "cd".toList then .cd
  else if arg = "dir".toList then .dir
  else if arg = "fileinfo".toList then .fileinfo
  else if arg = "get".toList then .get
  else .commands

/-- What a line asks for, `examples/ntfs-shell/main.rs:83-98`. -/
inductive Command
  | attr (withRuns : Bool) (arg : List Char)
  | cd (arg : List Char)
  | dir
  | exit
  | fileinfo (arg : List Char)
  | fsinfo
  | get (arg : List Char)
  | help (arg : List Char)
  | nothing
  | invalid (command : List Char)
  deriving DecidableEq, Repr

/-- `examples/ntfs-shell/main.rs:78-98`: the command of a line. -/
def Command.parse (line : List Char) : Command :=
  let (command, arg) := splitCommand line
  if command = "attr".toList then .attr false arg
  else if command = "attr_runs".toList then .attr true arg
  else if command = "cd".toList then .cd arg
  else if command = "dir".toList then .dir
  else if command = "exit".toList ∨ command = "quit".toList then .exit
  else if command = "fileinfo".toList then .fileinfo arg
  else if command = "fsinfo".toList then .fsinfo
  else if command = "get".toList then .get arg
  else if command = "help".toList then .help arg
  else if command = [] then .nothing
  else .invalid command

/-- An error that the main loop prints, `examples/ntfs-shell/main.rs:99-101`. -/
inductive CmdErr
  | lib (e : Err)
  | shell (m : ShellMsg)
  | invalidCommand (command : List Char)   -- main.rs:94-97

/-- One thing shown on the terminal. -/
inductive TermLine
  | prompt (path : List Char)              -- main.rs:68
  | attr (l : AttrLine)
  | entry (isDirectory : Bool) (name : Bytes)  -- main.rs:322
  | info (l : InfoLine)
  | fs (l : FsLine)
  | help (t : HelpText)
  | saving (bytes : Nat) (name : List Char)  -- main.rs:523-527
  | message (m : ShellMsg)                 -- on the standard output: main.rs:269, 279, 515
  | error (e : CmdErr)                     -- main.rs:100

/-- The host: the files in the current directory (by the name given to `open`) and the names under which it
does not create a file, for other reasons than that there is one. Simplified: two names are two files, and
writing to a file does not fail. -/
structure Host where
  files : List (List Char × Bytes)
  refuses : List Char → Bool

/-- External: whether `OpenOptions::create_new` fails for the name, `examples/ntfs-shell/main.rs:504-508`. -/
def Host.blocked (h : Host) (name : List Char) : Bool :=
  h.refuses name || h.files.any (·.1 == name)

/-- External: the files after a new one was written. -/
def Host.write (h : Host) : Option (List Char × Bytes) → Host
  | none => h
  | some f => { h with files := h.files ++ [f] }

/-- The state of the program between two lines: `CommandInfo` (`examples/ntfs-shell/main.rs:24-32`) and the host. -/
structure Session where
  shell : Shell
  host : Host

/-- How a message of the shell is shown: `println!` and `Ok(())` (`examples/ntfs-shell/main.rs:269`, 279 and 515),
or `bail!` and the like. -/
def ShellMsg.shown : ShellMsg → TermLine
  | .noSubdirectory a => .message (.noSubdirectory a)
  | .notADirectory a => .message (.notADirectory a)
  | .noDataAttribute a => .message (.noDataAttribute a)
  | m => .error (.shell m)

/-- The end of a command that prints lines and then ends with `r`, `examples/ntfs-shell/main.rs:99-101`: an error
is printed, and the loop goes on; a panic ends the program. -/
def shownResult {α : Type} (r : Res (Except ShellMsg α)) (out : List TermLine) : Res Unit × List TermLine :=
  match r with
  | .ok (.ok _) => (.ok (), out)
  | .ok (.error m) => (.ok (), out ++ [m.shown])
  | .err e => (.ok (), out ++ [.error (.lib e)])
  | .panic p => (.panic p, out)
  | .diverge => (.diverge, out)

/-- `examples/ntfs-shell/main.rs:83-101`, one command: how it ends, what is shown, the state afterwards. -/
def Session.run (fuel : Nat) (c : Command) (s : Session) (d : Dev) : Res Unit × List TermLine × Session × Dev :=
  match c with
  | .attr withRuns arg =>
    match s.shell.attr withRuns arg fuel d with
    | (r, l, d') => ((shownResult r (l.map .attr)).1, (shownResult r (l.map .attr)).2, s, d')
  | .cd arg =>
    match s.shell.cd arg fuel d with
    | (.ok (m, sh), d') => (.ok (), m.toList.map ShellMsg.shown, { s with shell := sh }, d')
    | (.err e, d') => (.ok (), [.error (.lib e)], s, d')
    | (.panic p, d') => (.panic p, [], s, d')
    | (.diverge, d') => (.diverge, [], s, d')
  | .dir =>
    match s.shell.dir fuel d with
    | (.ok (), l, d') => (.ok (), l.map fun e => .entry e.1 e.2, s, d')
    | (.err e, l, d') => (.ok (), l.map (fun e => .entry e.1 e.2) ++ [.error (.lib e)], s, d')
    | (.panic p, l, d') => (.panic p, l.map fun e => .entry e.1 e.2, s, d')
    | (.diverge, l, d') => (.diverge, l.map fun e => .entry e.1 e.2, s, d')
  | .exit => (.ok (), [], s, d)
  | .fileinfo arg =>
    match s.shell.fileinfo arg fuel d with
    | (r, l, d') => ((shownResult r (l.map .info)).1, (shownResult r (l.map .info)).2, s, d')
  | .fsinfo =>
    match s.shell.ntfs.fsinfo d with
    | (.ok (), l, d') => (.ok (), l.map .fs, s, d')
    | (.err e, l, d') => (.ok (), l.map .fs ++ [.error (.lib e)], s, d')
    | (.panic p, l, d') => (.panic p, l.map .fs, s, d')
    | (.diverge, l, d') => (.diverge, l.map .fs, s, d')
  | .get arg =>
    match s.shell.getShown arg s.host.blocked fuel d with
    | (r, n, f, d') =>
      let out := n.toList.map fun n => .saving n (outputName (splitStream arg).1 (splitStream arg).2)
      ((shownResult r out).1, (shownResult r out).2, { s with host := s.host.write f }, d')
  | .help arg => (.ok (), [.help (helpText arg)], s, d)
  | .nothing => (.ok (), [], s, d)
  | .invalid command => (.ok (), [.error (.invalidCommand command)], s, d)

/-- `examples/ntfs-shell/main.rs:67-102`, the main loop. `lines` is what `read_line` delivers (main.rs:71-76): `none` is
an error (the line is not UTF-8), which `unwrap` turns into a panic; the empty string and the end of the list
mean that the standard input was closed. Writing to the terminal does not fail. -/
def Session.loop (fuel : Nat) : List (Option (List Char)) → Session → Dev →
    Res Unit × List TermLine × Session × Dev
  | [], s, d => (.ok (), [.prompt s.shell.path], s, d)
  | none :: _, s, d => (.panic .unwrap, [.prompt s.shell.path], s, d)
  | some line :: rest, s, d =>
    if line = [] then (.ok (), [.prompt s.shell.path], s, d)
    else if Command.parse line = .exit then (.ok (), [.prompt s.shell.path], s, d)
    else
      match s.run fuel (Command.parse line) d with
      | (.ok (), out, s', d') =>
        match Session.loop fuel rest s' d' with
        | (r, out', s'', d'') => (r, .prompt s.shell.path :: (out ++ out'), s'', d'')
      | (.err e, out, s', d') => (.err e, .prompt s.shell.path :: out, s', d')
      | (.panic p, out, s', d') => (.panic p, .prompt s.shell.path :: out, s', d')
      | (.diverge, out, s', d') => (.diverge, .prompt s.shell.path :: out, s', d')

/-- `examples/ntfs-shell/main.rs:34-105`, `main`, after the image was opened: nothing of the session happens if the
volume cannot be opened (main.rs:48-50). Simplified as in `Shell.start`; the banner (main.rs:59-65) is left out. -/
def shellMain (fuel : Nat) (lines : List (Option (List Char))) (h : Host) (d : Dev) :
    Res Unit × List TermLine × Host × Dev :=
  match Shell.start fuel d with
  | (.ok sh, d') =>
    match Session.loop fuel lines ⟨sh, h⟩ d' with
    | (r, out, s, d'') => (r, out, s.host, d'')
  | (.err e, d') => (.err e, [], h, d')
  | (.panic p, d') => (.panic p, [], h, d')
  | (.diverge, d') => (.diverge, [], h, d')

end NT
