import Verif.Props.C63_Shown
import Verif.Props.C64_Walk

/-! C64: what a line shows, for every command. -/

namespace NT

namespace Spec

/-- In the state `s` the line shows exactly `out` behind the prompt, and the session goes on from `s'`. -/
def Answers (fuel : Nat) (img : Bytes) (s : Session) (line : List Char) (out : List TermLine) (s' : Session) : Prop :=
  ∀ d : Dev, d.Ok img → ∃ d' : Dev, d'.Ok img ∧ ∀ rest,
    Session.loop fuel (some line :: rest) s d = ((Session.loop fuel rest s' d').1,
      .prompt s.shell.path :: (out ++ (Session.loop fuel rest s' d').2.1), (Session.loop fuel rest s' d').2.2)

/-- The current directory is `D`, with the index `t`. -/
structure Here (s : Session) (tab : List Nat) (fuel : Nat) (D : View) (t : Node) : Prop where
  size : D.img.length < 2 ^ 64
  top : ∃ rest, s.shell.stack = D.base :: rest
  dir : ∃ steps, DirOf D steps t tab ∧ steps.length < fuel
  table : s.shell.ntfs.upcaseTable = some tab
  tableOk : TableOk tab
  fuel : t.entries + t.nodes < fuel

/-- The argument stands for the file `F`: by a name in the current directory, or by a slash and the number of its
record. -/
inductive Denotes (s : Session) (tab : List Nat) (D : View) (t : Node) (F : View) : List Char → Prop
  | name {arg e} : arg ≠ [] → arg.head? ≠ some '/' → Names tab t (utf16 arg) e →
      RecordOf F (leNat e.head % 2 ^ 48) → Denotes s tab D t F arg
  | number {arg n} : parseRecordNumber arg = some n → RecordOf F n → Denotes s tab D t F ('/' :: arg)

/-- The words that `help` knows, and the text for each. -/
def helpTopics : List (List Char × HelpText) :=
  [("attr".toList, .attr), ("attr_runs".toList, .attrRuns), ("cd".toList, .cd), ("dir".toList, .dir),
    ("fileinfo".toList, .fileinfo), ("get".toList, .get)]

end Spec

open Spec

theorem parse_eq {line w a : List Char} {c : Command} (h : Typed line w a) (hm : Meaning w a c) :
    Command.parse line = c := (C64_command line c).2 ⟨w, a, h, hm⟩

theorem not_ends_of {line w a : List Char} {c : Command} (h : Typed line w a) (hm : Meaning w a c) (hw : w ≠ [])
    (hc : c ≠ .exit) : ¬ Ends (some line) := by
  rw [ends_some, parse_eq h hm]
  rintro (rfl | h')
  · rw [← C64_typed] at h
    injection h with h _
    exact hw h.symm
  · exact hc h'

theorem Answers.of_run {fuel : Nat} {img : Bytes} (hu : img.length < 2 ^ 64) {s s' : Session} {line : List Char}
    {out : List TermLine} {c : Command} (he : ¬ Ends (some line)) (hc : Command.parse line = c)
    (h : ∀ d : Dev, d.Ok img → ∃ d', s.run fuel c d = (.ok (), out, s', d')) : Answers fuel img s line out s' := by
  intro d hd
  obtain ⟨d', hr⟩ := h d hd
  have hok := Session.run_ok (by simpa using hu) fuel c s d hd
  rw [hr] at hok
  refine ⟨d', hok, fun rest => ?_⟩
  rw [loop_line fuel he, hc, hr]

theorem Spec.NoFile.shown {tab : List Nat} {t : Node} {arg : List Char} {m : ShellMsg} (h : NoFile tab t arg m) :
    m.shown = .error (.shell m) := by
  cases h <;> rfl

theorem Spec.Denotes.parse {s : Session} {tab : List Nat} {fuel : Nat} {D F : View} {t : Node}
    (hh : Here s tab fuel D t) (hm : HasMft F) (hFn : F.ntfs = s.shell.ntfs) (hFi : F.img = D.img) {arg : List Char}
    (h : Denotes s tab D t F arg) (d : Dev) (hd : d.Ok D.img) :
    ∃ d', s.shell.parseFileArg arg fuel d = (.ok (.ok F.base), d') ∧ d'.Ok F.img := by
  obtain ⟨rest, ht⟩ := hh.top
  obtain ⟨steps, hD, hf⟩ := hh.dir
  have := hh.fuel
  cases h with
  | name h1 h2 h3 h4 =>
    obtain ⟨d', e, hd'⟩ := C59_by_name s.shell ht hD hh.table hh.tableOk arg h1 h2 h3 h4 hm hFn hFi fuel hf (by omega) d hd
    exact ⟨d', e, by rw [hFi]; exact hd'⟩
  | number h1 h2 => exact C59_by_number s.shell _ _ h1 h2 hm hFn fuel d (by rw [hFi]; exact hd)

/-- **C64**, `dir`: every entry of the current directory in order, and nothing else; nothing changes. -/
theorem C64_dir {s : Session} {tab : List Nat} {fuel : Nat} {D : View} {t : Node} (hh : Here s tab fuel D t)
    {line a : List Char} (hl : Typed line "dir".toList a) :
    Answers fuel D.img s line (t.inorder.map fun e => .entry (lineOf e).1 (lineOf e).2) s := by
  refine Answers.of_run hh.size (not_ends_of hl .dir (by decide) (fun h => by cases h)) (parse_eq hl .dir) fun d hd => ?_
  obtain ⟨rest, ht⟩ := hh.top
  obtain ⟨steps, hD, hf⟩ := hh.dir
  obtain ⟨d', e⟩ := C59_dir s.shell ht hD fuel hf hh.fuel d hd
  refine ⟨d', ?_⟩
  unfold Session.run
  dsimp only
  rw [e]
  dsimp only
  rw [List.map_map]
  rfl

/-- **C64**, `fileinfo` of an argument that stands for the file `F`: the lines of C62, and at an error the lines
before it and the error; nothing changes. -/
theorem C64_fileinfo {s : Session} {tab : List Nat} {fuel : Nat} {D F : View} {t : Node} (hh : Here s tab fuel D t)
    (hm : HasMft F) (hFn : F.ntfs = s.shell.ntfs) (hFi : F.img = D.img) {line arg : List Char}
    (hl : Typed line "fileinfo".toList arg) (hd : Denotes s tab D t F arg)
    {steps : List Step} {r : Res (Option AttrItem)} (hfl : Flattened F steps r)
    (hs : ∀ s ∈ steps, ∀ file off, s.At F file off → Showable file off) (hf : steps.length < fuel) :
    (∀ l, Listing F r steps l (.ok ()) → Answers fuel D.img s line ((headerLine F.base :: l).map .info) s) ∧
    (∀ l x, Listing F r steps l (.err x) →
      Answers fuel D.img s line ((headerLine F.base :: l).map .info ++ [.error (.lib x)]) s) := by
  have he := not_ends_of hl .fileinfo (by decide) (fun h => by cases h)
  have hp := parse_eq hl .fileinfo
  constructor
  · intro l hll
    refine Answers.of_run hh.size he hp fun d hd' => ?_
    obtain ⟨d1, e1, hd1⟩ := hd.parse hh hm hFn hFi d hd'
    obtain ⟨d2, e2, _⟩ := (C62_command s.shell arg fuel d d1 hd1 e1 hfl hs hf).1 l hll
    refine ⟨d2, ?_⟩
    unfold Session.run
    dsimp only
    rw [e2]
    rfl
  · intro l x hll
    refine Answers.of_run hh.size he hp fun d hd' => ?_
    obtain ⟨d1, e1, hd1⟩ := hd.parse hh hm hFn hFi d hd'
    obtain ⟨d2, e2, _⟩ := (C62_command s.shell arg fuel d d1 hd1 e1 hfl hs hf).2 l x hll
    refine ⟨d2, ?_⟩
    unfold Session.run
    dsimp only
    rw [e2]
    rfl

/-- **C64**, `attr` and `attr_runs` of an argument that stands for the file `F`: the table of C63 without and with
the data runs, and at an error the lines before it and the error; nothing changes. -/
theorem C64_attr {s : Session} {tab : List Nat} {D F : View} {t : Node}
    (hm : HasMft F) (hFn : F.ntfs = s.shell.ntfs) (hFi : F.img = D.img) {w : Bool} {line arg : List Char}
    (hl : Typed line (if w then "attr_runs".toList else "attr".toList) arg) (hd : Denotes s tab D t F arg)
    {offs : List Nat} {fin : Nat} (ht : Tabular w F offs fin) {l : List AttrLine} {q : Res Unit}
    (htab : Table w F fin offs l q) :
    ∃ n0, ∀ fuel ≥ n0, Here s tab fuel D t →
      (q = .ok () → Answers fuel D.img s line (l.map .attr) s) ∧
      (∀ x, q = .err x → Answers fuel D.img s line (l.map .attr ++ [.error (.lib x)]) s) := by
  obtain ⟨n0, h0⟩ := C63_command s.shell w hFn.symm arg ht htab
  have hmean : Meaning (if w then "attr_runs".toList else "attr".toList) arg (.attr w arg) := by
    cases w
    · exact .attr
    · exact .attrRuns
  have he := not_ends_of hl hmean (by cases w <;> decide) (fun h => by cases h)
  have hp := parse_eq hl hmean
  refine ⟨n0, fun fuel hf hh => ⟨fun hq => ?_, fun x hq => ?_⟩⟩
  · refine Answers.of_run hh.size he hp fun d hd' => ?_
    obtain ⟨d1, e1, hd1⟩ := hd.parse hh hm hFn hFi d hd'
    obtain ⟨d2, _, e2, _⟩ := h0 fuel hf d d1 hd1 e1
    refine ⟨d2, ?_⟩
    unfold Session.run
    dsimp only
    rw [e2 hq]
    rfl
  · refine Answers.of_run hh.size he hp fun d hd' => ?_
    obtain ⟨d1, e1, hd1⟩ := hd.parse hh hm hFn hFi d hd'
    obtain ⟨d2, _, _, e2⟩ := h0 fuel hf d d1 hd1 e1
    refine ⟨d2, ?_⟩
    unfold Session.run
    dsimp only
    rw [e2 x hq]
    rfl

/-- **C64**, `fsinfo`: what the boot sector and record 3 say; without a version the layout and an error. -/
theorem C64_fsinfo {s : Session} {V : View} (hu : V.img.length < 2 ^ 64) {g : Geometry} {t : Option (List Nat)}
    (hg : V.ntfs = { Ntfs.ofGeometry g with upcaseTable := t }) (hs : s.shell.ntfs = V.ntfs) (h3 : RecordOf V 3)
    (hm : HasMft V) {line a : List Char} (hl : Typed line "fsinfo".toList a) (fuel : Nat) :
    (∀ major minor label, VersionIs V.base major minor → LabelIs V.base label →
      Answers fuel V.img s line ((fsLines g major minor (some label)).map .fs) s) ∧
    (∀ major minor, VersionIs V.base major minor → NoneOf V.base.recordData 0x60 →
      Answers fuel V.img s line ((fsLines g major minor none).map .fs) s) ∧
    (NoneOf V.base.recordData 0x70 →
      Answers fuel V.img s line (((fsLines g 0 0 none).take 1).map .fs ++
        [.error (.lib (.attributeNotFound V.base.position .volumeInformation))]) s) := by
  have he := not_ends_of hl .fsinfo (by decide) (fun h => by cases h)
  have hp := parse_eq hl .fsinfo
  refine ⟨fun major minor label hv hlab => ?_, fun major minor hv hlab => ?_, fun hv => ?_⟩
  · refine Answers.of_run hu he hp fun d hd => ?_
    obtain ⟨d', e, _⟩ := (C62_fsinfo hg h3 hm d hd).1 major minor label hv hlab
    refine ⟨d', ?_⟩
    unfold Session.run
    dsimp only
    rw [hs, e]
  · refine Answers.of_run hu he hp fun d hd => ?_
    obtain ⟨d', e, _⟩ := (C62_fsinfo hg h3 hm d hd).2.1 major minor hv hlab
    refine ⟨d', ?_⟩
    unfold Session.run
    dsimp only
    rw [hs, e]
  · refine Answers.of_run hu he hp fun d hd => ?_
    have h := C62_fsinfo hg h3 hm d hd
    have e1 := h.2.2.2.1 hv
    have e2 := h.2.2.2.2
    generalize hx : V.ntfs.fsinfo d = x at e1 e2
    obtain ⟨q, out, d'⟩ := x
    cases e1
    refine ⟨d', ?_⟩
    unfold Session.run
    dsimp only
    rw [hs, hx]
    dsimp only
    rw [e2 _ _ _ rfl]

/-- **C64**: an argument that names no file is an error of `attr`, `attr_runs` and `fileinfo`, and nothing changes.
-/
theorem C64_no_file {s : Session} {tab : List Nat} {fuel : Nat} {D : View} {t : Node} (hh : Here s tab fuel D t)
    {line w arg : List Char} (hw : w ∈ ["attr".toList, "attr_runs".toList, "fileinfo".toList])
    (hl : Typed line w arg) {m : ShellMsg} (hn : NoFile tab t arg m) :
    Answers fuel D.img s line [.error (.shell m)] s := by
  obtain ⟨rest, ht⟩ := hh.top
  obtain ⟨steps, hD, hf⟩ := hh.dir
  have hfu := hh.fuel
  have hsh := hn.shown
  have hattr : ∀ b : Bool, Typed line (if b then "attr_runs".toList else "attr".toList) arg →
      Answers fuel D.img s line [.error (.shell m)] s := by
    intro b hl
    have hmean : Meaning (if b then "attr_runs".toList else "attr".toList) arg (.attr b arg) := by
      cases b
      · exact .attr
      · exact .attrRuns
    refine Answers.of_run hh.size (not_ends_of hl hmean (by cases b <;> decide) (fun h => by cases h))
      (parse_eq hl hmean) fun d hd => ?_
    obtain ⟨d', e, _⟩ := C63_no_file s.shell b ht hD hh.table hh.tableOk hn fuel hf (by omega) d hd
    refine ⟨d', ?_⟩
    unfold Session.run
    dsimp only
    rw [e]
    unfold shownResult
    dsimp only
    rw [hsh]
    rfl
  simp only [List.mem_cons, List.not_mem_nil, or_false] at hw
  rcases hw with rfl | rfl | rfl
  · exact hattr false hl
  · exact hattr true hl
  · refine Answers.of_run hh.size (not_ends_of hl .fileinfo (by decide) (fun h => by cases h))
      (parse_eq hl .fileinfo) fun d hd => ?_
    obtain ⟨d', e, _⟩ := C62_no_file s.shell ht hD hh.table hh.tableOk hn fuel hf (by omega) d hd
    refine ⟨d', ?_⟩
    unfold Session.run
    dsimp only
    rw [e]
    unfold shownResult
    dsimp only
    rw [hsh]
    rfl

/-- **C64**, `get` of an argument that names no file: an error, and an empty file is left behind on the host. -/
theorem C64_get_no_file {s : Session} {tab : List Nat} {fuel : Nat} {D : View} {t : Node} (hh : Here s tab fuel D t)
    {line arg : List Char} (hl : Typed line "get".toList arg) {m : ShellMsg}
    (hn : NoFile tab t (splitStream arg).1 m)
    (hfree : s.host.blocked (outputName (splitStream arg).1 (splitStream arg).2) = false) :
    Answers fuel D.img s line [.error (.shell m)]
      { s with host := { s.host with
        files := s.host.files ++ [(outputName (splitStream arg).1 (splitStream arg).2, [])] } } := by
  obtain ⟨rest, ht⟩ := hh.top
  obtain ⟨steps, hD, hf⟩ := hh.dir
  have hfu := hh.fuel
  have hsh := hn.shown
  refine Answers.of_run hh.size (not_ends_of hl .get (by decide) (fun h => by cases h)) (parse_eq hl .get) fun d hd => ?_
  obtain ⟨d', e, _⟩ := hn.parse s.shell ht hD hh.table hh.tableOk fuel hf (by omega) d hd
  refine ⟨d', ?_⟩
  have hg : s.shell.get arg s.host.blocked fuel d =
      (.ok (.error m), some (outputName (splitStream arg).1 (splitStream arg).2, []), d') := by
    have ho : s.shell.openData (splitStream arg).1 (splitStream arg).2 fuel d = (.ok (.error m), d') := by
      unfold Shell.openData
      rw [StM.bind_of_ok e]
      rfl
    rw [Shell.get_eq]
    rw [hfree, if_neg (by simp), ho]
  rw [run_get_error hg, hsh]
  rfl

/-- **C64**, `get` of a stream of the file `F`: it shows the size and leaves exactly the bytes of the stream on the
host. If the file has no such stream, it says so and leaves an empty file behind. -/
theorem C64_get {s : Session} {tab : List Nat} {fuel : Nat} {D F : View} {t : Node} (hh : Here s tab fuel D t)
    (hm : HasMft F) (hFn : F.ntfs = s.shell.ntfs) (hFb : F.base.ntfs = F.ntfs) (hFi : F.img = D.img)
    {line arg : List Char} (hl : Typed line "get".toList arg) (hd : Denotes s tab D t F (splitStream arg).1)
    {steps : List Step} {r : Res (Option AttrItem)} (hfl : Flattened F steps r) (hf : steps.length < fuel)
    (hfree : s.host.blocked (outputName (splitStream arg).1 (splitStream arg).2) = false) :
    (∀ c size, StreamOf F steps (utf16 (splitStream arg).2) c size → c.length < fuel →
      Answers fuel D.img s line [.saving size (outputName (splitStream arg).1 (splitStream arg).2)] { s with host := { s.host with
        files := s.host.files ++ [(outputName (splitStream arg).1 (splitStream arg).2, c)] } }) ∧
    (NoStreamOf F steps r (utf16 (splitStream arg).2) →
      Answers fuel D.img s line [.message (.noDataAttribute (splitStream arg).2)] { s with host := { s.host with
        files := s.host.files ++ [(outputName (splitStream arg).1 (splitStream arg).2, [])] } }) := by
  have he := not_ends_of hl .get (by decide) (fun h => by cases h)
  have hp := parse_eq hl .get
  have hup : F.base.ntfs.upcaseTable = some tab := by rw [hFb, hFn]; exact hh.table
  constructor
  · intro c size hst hc
    refine Answers.of_run hh.size he hp fun d hd' => ?_
    obtain ⟨d1, e1, hd1⟩ := hd.parse hh hm hFn hFi d hd'
    obtain ⟨d2, e2, _⟩ := C59_get s.shell arg s.host.blocked hfree fuel d d1 hd1 e1 hfl
      (fun _ => ⟨tab, hup, hh.tableOk⟩) hst hf hc
    exact ⟨d2, run_get_ok e2⟩
  · intro hst
    refine Answers.of_run hh.size he hp fun d hd' => ?_
    obtain ⟨d1, e1, hd1⟩ := hd.parse hh hm hFn hFi d hd'
    obtain ⟨d2, e2, _⟩ := C59_get_no_stream s.shell arg s.host.blocked hfree fuel d d1 hd1 e1 hfl
      (fun _ => ⟨tab, hup, hh.tableOk⟩) hst hf
    exact ⟨d2, run_get_error e2⟩

/-- **C64**, a `cd` that does not lead anywhere: a name that no entry has, and a name of something that is not a
directory. Both are told, and nothing changes. -/
theorem C64_cd_nowhere {s : Session} {tab : List Nat} {fuel : Nat} {D : View} {t : Node} (hh : Here s tab fuel D t)
    {line arg : List Char} (hl : Typed line "cd".toList arg) (hne : arg ≠ []) (hup : arg ≠ ['.', '.']) :
    ((∀ e ∈ t.inorder, ¬ ∃ u, Upper tab (utf16 arg) u ∧ UpperName tab e u) →
      Answers fuel D.img s line [.message (.noSubdirectory arg)] s) ∧
    (∀ e, Names tab t (utf16 arg) e → (field e.key 56 4).testBit 28 = false →
      Answers fuel D.img s line [.message (.notADirectory arg)] s) := by
  obtain ⟨rest, ht⟩ := hh.top
  obtain ⟨steps, hD, hf⟩ := hh.dir
  have hfu := hh.fuel
  have he := not_ends_of hl .cd (by decide) (fun h => by cases h)
  have hp := parse_eq hl .cd
  constructor
  · intro hno
    refine Answers.of_run hh.size he hp fun d hd => ?_
    obtain ⟨ix, d1, q, d2, e1, e2, hd2, ⟨x, e', u, rfl, g2, g3, g4, g5⟩ | ⟨rfl, g2⟩⟩ :=
      hD.find hh.table hh.tableOk (utf16 arg) (utf16_units arg) fuel hf (by omega) d hd
    · exact absurd ⟨u, g4, g5⟩ (hno e' g3)
    · refine ⟨d2, ?_⟩
      have hc : s.shell.cd arg fuel d = (.ok (some (.noSubdirectory arg), s.shell), d2) := by
        unfold Shell.cd
        rw [if_neg hne, if_neg hup]
        unfold Shell.cdInto
        rw [StM.bind_of_ok (a := D.base) (s' := d) (by rw [StM.lift_apply, s.shell.last_eq ht]), StM.bind_of_ok e1,
          StM.bind_of_ok e2]
        rfl
      unfold Session.run
      dsimp only
      rw [hc]
      rfl
  · intro e hn hfile
    refine Answers.of_run hh.size he hp fun d hd => ?_
    obtain ⟨ix, d1, x, d2, e1, e2, hd2, hx⟩ :=
      hD.finds hh.table hh.tableOk (utf16_units arg) hn fuel hf (by omega) d hd
    obtain ⟨u, _, hu⟩ := hn.upper
    have hk := hx.fileNameKey hu
    refine ⟨d2, ?_⟩
    have hc : s.shell.cd arg fuel d = (.ok (some (.notADirectory arg), s.shell), d2) := by
      unfold Shell.cd
      rw [if_neg hne, if_neg hup]
      unfold Shell.cdInto
      rw [StM.bind_of_ok (a := D.base) (s' := d) (by rw [StM.lift_apply, s.shell.last_eq ht]), StM.bind_of_ok e1,
        StM.bind_of_ok e2]
      dsimp only
      have hb : (fileNameAt e.key).isDirectory = false := by
        rw [(C38_flags ⟨0, 0, 0, 0, 0, none⟩ (fileNameAt e.key) ⟨0, 0, 0⟩ 0).2.2.2]
        exact hfile
      rw [StM.bind_of_ok (a := fileNameAt e.key) (s' := d2) (by rw [StM.lift_apply, hk]), hb, if_pos (by simp)]
      rfl
    unfold Session.run
    dsimp only
    rw [hc]
    rfl

/-- **C64**, lines that do not touch the volume: an empty line, a word that is no command, and `help`. -/
theorem C64_help {img : Bytes} (hu : img.length < 2 ^ 64) (s : Session) (fuel : Nat) {line w arg : List Char}
    (hl : Typed line w arg) :
    (w = [] → line ≠ [] → Answers fuel img s line [] s) ∧
    (w ∉ knownWords → w ≠ [] → Answers fuel img s line [.error (.invalidCommand w)] s) ∧
    (w = "help".toList → (∀ t, (arg, t) ∈ helpTopics → Answers fuel img s line [.help t] s) ∧
      ((∀ t, (arg, t) ∉ helpTopics) → Answers fuel img s line [.help .commands] s)) := by
  refine ⟨?_, ?_, ?_⟩
  · rintro rfl hne
    have hp := parse_eq hl .nothing
    refine Answers.of_run hu ?_ hp fun d _ => ⟨d, rfl⟩
    rw [ends_some, hp]
    rintro (h | h)
    · exact hne h
    · cases h
  · intro hw hne
    exact Answers.of_run hu (not_ends_of hl (.other hw) hne (fun h => by cases h)) (parse_eq hl (.other hw))
      fun d _ => ⟨d, rfl⟩
  · rintro rfl
    have he := not_ends_of hl .help (by decide) (fun h => by cases h)
    have hp := parse_eq hl .help
    constructor
    · intro t ht
      refine Answers.of_run hu he hp fun d _ => ⟨d, ?_⟩
      simp only [helpTopics, List.mem_cons, List.not_mem_nil, or_false, Prod.mk.injEq] at ht
      rcases ht with ⟨rfl, rfl⟩ | ⟨rfl, rfl⟩ | ⟨rfl, rfl⟩ | ⟨rfl, rfl⟩ | ⟨rfl, rfl⟩ | ⟨rfl, rfl⟩ <;> rfl
    · intro ht
      refine Answers.of_run hu he hp fun d _ => ⟨d, ?_⟩
      have h6 : ∀ t p, (p, t) ∈ helpTopics → arg ≠ p := fun t p h e => ht t (e ▸ h)
      have hx : helpText arg = .commands := by
        unfold helpText
        rw [if_neg (h6 .attr _ (by decide)), if_neg (h6 .attrRuns _ (by decide)), if_neg (h6 .cd _ (by decide)),
          if_neg (h6 .dir _ (by decide)), if_neg (h6 .fileinfo _ (by decide)), if_neg (h6 .get _ (by decide))]
      unfold Session.run
      dsimp only
      rw [hx]

/-! ### The hypotheses are met: the example volume, in the root directory -/

/-- The state at the start, on a host with one file. -/
def exSession : Session := ⟨⟨[exRoot.base], [], exVol (some exTable)⟩, ⟨[("G".toList, [1])], fun _ => false⟩⟩

theorem exHere : Here exSession exTable 2000 exRoot exRootTree where
  size := by show exDisk.length < _; rw [exDisk_length]; omega
  top := ⟨[], rfl⟩
  dir := ⟨_, exRoot_dir, by decide⟩
  table := rfl
  tableOk := exTable_ok
  fuel := by decide

theorem exDenotes : Denotes exSession exTable exRoot exRootTree exFile "F".toList :=
  .name (by decide) (by decide) exNames_file (exRec_records _).2.2.2

theorem exDenotes_number : Denotes exSession exTable exRoot exRootTree exFile "/0xc".toList :=
  .number (n := 12) (by decide) (exRec_records _).2.2.2

theorem exNo_g : ∀ e ∈ exRootTree.inorder, ¬ ∃ u, Upper exTable (utf16 ['g']) u ∧ UpperName exTable e u := by
  show ∀ e ∈ [exEntSub, exEntFile], _
  intro e he ⟨u, h1, h2⟩
  have h3 := upper_unique h1 (exUpper 103 (by decide) .nil)
  rw [h3] at h2
  simp only [List.mem_cons, List.not_mem_nil, or_false] at he
  rcases he with rfl | rfl
  · have := h2.unique exRoot_upper.1
    simp at this
  · have := h2.unique exRoot_upper.2
    simp at this

example : Answers 2000 exDisk exSession "dir\n".toList
    ([exEntSub, exEntFile].map fun e => .entry (lineOf e).1 (lineOf e).2) exSession :=
  C64_dir exHere (a := []) ((C64_typed _ _ _).1 (by decide))

example : Answers 2000 exDisk exSession " fileinfo /0xc\n".toList ((headerLine exFile.base :: exInfoLines).map .info)
    exSession :=
  (C64_fileinfo (F := exFile) (line := " fileinfo /0xc\n".toList) exHere (exRec_hasMft _ _ _ _) rfl rfl
    ((C64_typed _ _ "/0xc".toList).1 (by decide)) exDenotes_number exFile_flattened exFile_showable (by decide)).1 _ exFile_listing

example : ∃ n0, ∀ fuel ≥ n0, Here exSession exTable fuel exRoot exRootTree →
    Answers fuel exDisk exSession "attr_runs F\n".toList (exFileLines.map .attr) exSession := by
  obtain ⟨n0, h⟩ := C64_attr (s := exSession) (D := exRoot) (F := exFile) (exRec_hasMft _ _ _ _) rfl rfl (w := true)
    (line := "attr_runs F\n".toList) ((C64_typed _ _ _).1 (by decide)) exDenotes exFile_tabular exFile_table
  exact ⟨n0, fun fuel hf hh => (h fuel hf hh).1 rfl⟩

set_option maxRecDepth 20000 in
example (host : Host) : Answers 5 exVolImage ⟨⟨[], [], exVolNtfs⟩, host⟩ "fsinfo now\n".toList
    [.fs (.layout 64 128 (some 64)), .fs (.version 3 1), .fs (.size 64 0 320), .fs (.label (some [65, 0, 66, 0]))]
    ⟨⟨[], [], exVolNtfs⟩, host⟩ := by
  have a1 : AttrAt exVolFile.recordData 56 32 := ⟨by decide, by decide, by decide, by decide⟩
  have a2 : AttrAt exVolFile.recordData 88 40 := ⟨by decide, by decide, by decide, by decide⟩
  have h20 : field exVolFile.recordData 20 2 = 56 := by decide
  exact (C64_fsinfo (V := exFsView) (by decide) (g := ⟨64, 1, 128, 5, 1, 0⟩) (t := none) rfl rfl
    ⟨by decide, 192, by decide, by decide, by decide⟩ ⟨_, _, _, _, _, exVolMft_stored⟩ (a := "now".toList)
    ((C64_typed _ _ _).1 (by decide)) 5).1 3 1 [65, 0, 66, 0]
    ⟨88, ⟨[56], by rw [show field exFsView.base.recordData 20 2 = 56 from h20]; exact .cons a1 (.nil 88), ⟨40, a2⟩,
      by decide, by decide⟩, ⟨by decide, by decide, by decide⟩, by decide, by decide, by decide⟩
    ⟨56, ⟨[], by rw [show field exFsView.base.recordData 20 2 = 56 from h20]; exact .nil 56, ⟨32, a1⟩, by decide,
      by simp⟩, ⟨by decide, by decide, by decide⟩, by decide, by decide⟩

example : Answers 2000 exDisk exSession "attr g\n".toList [.error (.shell (.noSuchFile "g".toList))] exSession :=
  C64_no_file exHere (w := "attr".toList) (by decide) ((C64_typed _ _ _).1 (by decide)) (.name _ (by decide) (by decide) exNo_g)

example : Answers 2000 exDisk exSession "get g:s\n".toList [.error (.shell (.noSuchFile "g".toList))]
    { exSession with host := ⟨[("G".toList, [1]), ("g_s".toList, [])], fun _ => false⟩ } :=
  C64_get_no_file exHere ((C64_typed _ _ "g:s".toList).1 (by decide)) (.name _ (by decide) (by decide) exNo_g)
    (by decide)

example : Answers 2000 exDisk exSession "get F\n".toList [.saving 1100 "F".toList]
    { exSession with host := ⟨[("G".toList, [1]), ("F".toList, exFileBytes)], fun _ => false⟩ } :=
  (C64_get (F := exFile) (line := "get F\n".toList) exHere (exRec_hasMft _ _ _ _) rfl rfl rfl ((C64_typed _ _ "F".toList).1 (by decide)) exDenotes
    exFile_flattened (by decide) (by decide)).1 _ _ exFile_unnamed (by decide +kernel)

example : Answers 2000 exDisk exSession "cd g\n".toList [.message (.noSubdirectory "g".toList)] exSession ∧
    Answers 2000 exDisk exSession "cd F\n".toList [.message (.notADirectory "F".toList)] exSession :=
  ⟨(C64_cd_nowhere exHere ((C64_typed _ _ "g".toList).1 (by decide)) (by decide) (by decide)).1 exNo_g,
   (C64_cd_nowhere exHere ((C64_typed _ _ "F".toList).1 (by decide)) (by decide) (by decide)).2 _ exNames_file
     (by decide +kernel)⟩

example : Answers 3 exDisk exSession "help cd\n".toList [.help .cd] exSession ∧
    Answers 3 exDisk exSession "help fsinfo\n".toList [.help .commands] exSession ∧
    Answers 3 exDisk exSession "ls -l\n".toList [.error (.invalidCommand "ls".toList)] exSession :=
  ⟨((C64_help exHere.size exSession 3 ((C64_typed _ _ "cd".toList).1 (by decide))).2.2 rfl).1 _ (by decide),
   ((C64_help exHere.size exSession 3 ((C64_typed _ _ "fsinfo".toList).1 (by decide))).2.2 rfl).2
     (by intro t; cases t <;> decide),
   (C64_help exHere.size exSession 3 ((C64_typed _ "ls".toList "-l".toList).1 (by decide))).2.1 (by decide) (by decide)⟩

/-- Lines that end the session and lines that do not. -/
theorem exEnds : Ends (some "exit\n".toList) ∧ Ends none ∧ ¬ Ends (some "help\n".toList) ∧ ¬ Ends (some "cd ..\n".toList) := by
  refine ⟨.inr (.inr ⟨_, _, _, rfl, (C64_typed _ _ _).1 (by decide : splitCommand _ = ("exit".toList, [])), .inl rfl⟩), .inl rfl, ?_, ?_⟩
  all_goals
    rintro (h | h | ⟨t, w, a, h, ht, hw⟩)
    · cases h
    · cases h
    · cases h
      have := (C64_typed _ _ _).2 ht
      rcases hw with rfl | rfl
      · have h2 := congrArg Prod.fst this; dsimp only at h2; exact absurd h2 (by decide)
      · have h2 := congrArg Prod.fst this; dsimp only at h2; exact absurd h2 (by decide)

/-- The theorems about whole sessions, on such lines. -/
example (d : Dev) := C64_after_end 2000 [some "help\n".toList] [some "dir\n".toList] _ exEnds.1 exSession d
theorem exHelp_loop (d : Dev) : Session.loop 3 [some "help\n".toList] exSession d =
    (.ok (), [.prompt [], .help .commands, .prompt []], exSession, d) := rfl
example (d : Dev) := C64_cut 3 [some "help\n".toList] [some "dir\n".toList]
  (by intro l hl; simp at hl; subst hl; exact exEnds.2.2.1) exSession exSession d d _ (exHelp_loop d)
example (d : Dev) (hd : d.Ok exDisk) := C64_only_cd (by rw [exDisk_length]; decide) 3 (args := [])
  (CdArgs.other exEnds.2.2.1 ((C64_typed _ "help".toList []).1 (by decide)) (by decide) .nil)
  exSession exSession d d hd _ (exHelp_loop d) d hd
example (d : Dev) (hd : d.Ok exDisk) := C64_prompts (by rw [exDisk_length]; decide) 3 [some "help\n".toList] exSession d
  hd 1 [] (by rw [exHelp_loop]; rfl)
example (d : Dev) := C64_all_lines 3 [some "help\n".toList] [some "exit\n".toList]
  (by intro l hl; simp at hl; subst hl; exact exEnds.2.2.1)
  (by intro l r h; cases h; exact exEnds.1) exSession d rfl
example (d : Dev) (hd : d.Ok exDisk) (f : List Char × Bytes) := C64_contents (by rw [exDisk_length]; decide) 2000
  [some "get F\n".toList] exSession d hd f
example (d d1 d2 : Dev) := C64_second_get 9 "a:b".toList "a_b".toList (by decide) exSession d [none] d1 d2

end NT
