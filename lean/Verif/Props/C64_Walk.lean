import Verif.Props.C59_Example
import Verif.Props.C64_State

/-! C64: from the root directory through any number of subdirectories to a file, and its bytes on the host. -/

namespace NT

namespace Spec

/-- The line is a `cd` from the directory `D` into its subdirectory `F`, whose name is shown as `shown`. -/
def Into (ntfs : Ntfs) (tab : List Nat) (fuel : Nat) (D F : View) (line shown : List Char) : Prop :=
  ∃ arg steps t e fsteps r n,
    Typed line "cd".toList arg ∧ arg ≠ [] ∧ arg ≠ ['.', '.'] ∧
    DirOf D steps t tab ∧ Names tab t (utf16 arg) e ∧ (field e.key 56 4).testBit 28 = true ∧
    RecordOf F (leNat e.head % 2 ^ 48) ∧ HasMft F ∧ F.ntfs = ntfs ∧ F.img = D.img ∧
    Flattened F fsteps r ∧
    (∀ s ∈ fsteps, ∀ file off, s.At F file off → field file.recordData off 4 = 0x30 → Placed file off) ∧
    CleanNames F fsteps r ∧ BestNamed F fsteps D.base.fileRecordNumber n ∧ shown = lossy (u16s n.name) ∧
    shown ≠ [] ∧ steps.length < fuel ∧ t.entries + t.nodes ≤ fuel ∧ fsteps.length < fuel

/-- The lines (with the names shown) lead from the directory `D` to `F`; `st` are the directories on the way, the
last one first. -/
inductive Walk (ntfs : Ntfs) (tab : List Nat) (fuel : Nat) :
    View → List (List Char × List Char) → View → List NFile → Prop
  | here {D} : Walk ntfs tab fuel D [] D []
  | into {D E F line shown ls st} : Into ntfs tab fuel D E line shown → Walk ntfs tab fuel E ls F st →
      Walk ntfs tab fuel D ((line, shown) :: ls) F (st ++ [D.base])

end Spec

open Spec

theorem pathOf_join (p : List (List Char)) (n : List Char) (h : ∀ x ∈ p, x ≠ []) :
    extendPath (pathOf p) n = pathOf (p ++ [n]) := by
  have hne : ∀ p : List (List Char), (∀ x ∈ p, x ≠ []) → p ≠ [] → pathOf p ≠ [] := by
    intro p h hp
    match p, h with
    | [], _ => exact absurd rfl hp
    | [n], h => exact h n (by simp)
    | n :: m :: rest, _ =>
      intro e
      simp [pathOf] at e
  induction p with
  | nil => rfl
  | cons a p ih =>
    unfold extendPath
    rw [if_neg (hne _ h (by simp))]
    cases p with
    | nil => simp [pathOf]
    | cons b p =>
      have ih := ih fun x hx => h x (List.mem_cons_of_mem _ hx)
      unfold extendPath at ih
      rw [if_neg (hne _ (fun x hx => h x (List.mem_cons_of_mem _ hx)) (by simp))] at ih
      simp only [pathOf, List.cons_append, List.append_assoc] at ih ⊢
      rw [← ih]

theorem not_ends_cd {t a : List Char} (h : Typed t "cd".toList a) : ¬ Ends (some t) := by
  rw [ends_some, parse_cd h]
  rintro (rfl | h')
  · rw [← C64_typed] at h
    injection h with h _
    exact absurd h (by decide)
  · cases h'

theorem not_ends_get {t a : List Char} (h : Typed t "get".toList a) : ¬ Ends (some t) := by
  rw [ends_some, parse_get h]
  rintro (rfl | h')
  · rw [← C64_typed] at h
    injection h with h _
    exact absurd h (by decide)
  · cases h'

/-- **C64**: walking down a path of any depth. Each `cd` shows nothing but the next prompt, and the prompts show
the names of the directories so far; afterwards the last one is the current directory. -/
theorem C64_walk {ntfs : Ntfs} {tab : List Nat} (hn : ntfs.upcaseTable = some tab) (ht : TableOk tab) {fuel : Nat}
    {D F : View} {ls : List (List Char × List Char)} {st : List NFile} (hw : Walk ntfs tab fuel D ls F st)
    (p : List (List Char)) (hp : ∀ x ∈ p, x ≠ []) (st0 : List NFile) (host : Host)
    (rest : List (Option (List Char))) (d : Dev) (hd : d.Ok D.img) :
    F.img = D.img ∧ ∃ d', d'.Ok D.img ∧
      let r := Session.loop fuel rest ⟨⟨F.base :: (st ++ st0), pathOf (p ++ ls.map (·.2)), ntfs⟩, host⟩ d'
      Session.loop fuel (ls.map (fun l => some l.1) ++ rest) ⟨⟨D.base :: st0, pathOf p, ntfs⟩, host⟩ d =
        (r.1, (List.range ls.length).map (fun i => .prompt (pathOf (p ++ (ls.map (·.2)).take i))) ++ r.2.1, r.2.2) := by
  induction hw generalizing p st0 d with
  | here =>
    refine ⟨rfl, d, hd, ?_⟩
    simp
  | @into D E F line shown ls st hin _ ih =>
    obtain ⟨arg, steps, t, e, fsteps, r, n, k1, k2, k3, k4, k5, k6, k7, k8, k9, k10, k11, k12, k13, k14, k15, k16,
      k17, k18, k19⟩ := hin
    obtain ⟨d1, e1, hd1⟩ := C59_cd ⟨D.base :: st0, pathOf p, ntfs⟩ (D := D) (F := E) rfl k4 hn ht arg k2 k3 k5 k6
      k7 k8 k9 k10 k11 k12 k13 k14 fuel k17 k18 k19 d hd
    rw [← k10] at hd1
    obtain ⟨g1, d2, g2, g3⟩ := ih (p ++ [shown]) (by
      intro x hx
      rcases List.mem_append.1 hx with hx | hx
      · exact hp x hx
      · rw [List.mem_singleton] at hx
        rw [hx]
        exact k16) (D.base :: st0) d1 hd1
    rw [k10] at g1 g2
    refine ⟨g1, d2, g2, ?_⟩
    have hrun : Session.run fuel (Command.parse line) ⟨⟨D.base :: st0, pathOf p, ntfs⟩, host⟩ d =
        (.ok (), [], ⟨⟨E.base :: D.base :: st0, pathOf (p ++ [shown]), ntfs⟩, host⟩, d1) := by
      rw [parse_cd k1]
      unfold Session.run
      dsimp only
      rw [e1]
      dsimp only
      rw [← k15, pathOf_join p shown hp]
      rfl
    dsimp only at g3 ⊢
    rw [List.map_cons, List.cons_append, loop_line fuel (not_ends_cd k1), hrun]
    dsimp only
    rw [g3]
    have h1 : (st ++ [D.base]) ++ st0 = st ++ D.base :: st0 := by simp
    have h2 : p ++ List.map (fun x => x.2) ((line, shown) :: ls) = p ++ [shown] ++ List.map (fun x => x.2) ls := by
      simp
    rw [h1, h2]
    have h3 : ∀ x : List TermLine, TermLine.prompt (pathOf p) ::
        ([] ++ ((List.range ls.length).map (fun i => TermLine.prompt (pathOf (p ++ [shown] ++
          (ls.map (·.2)).take i))) ++ x)) =
        (List.range ((line, shown) :: ls).length).map (fun i => TermLine.prompt (pathOf (p ++
          (((line, shown) :: ls).map (·.2)).take i))) ++ x := by
      intro x
      rw [List.length_cons, List.range_succ_eq_map, List.map_cons, List.map_map]
      simp [Function.comp_def]
    rw [h3]

/-- **C64**, from the bytes of a volume to the bytes on the host, at any depth: for every volume with a boot
sector, an MFT, an upcase table and a root directory, every way from the root directory down to a directory `D`,
and every stream of a file named there, the lines `cd ...`, `cd ...`, ..., `get ...` write exactly the bytes of the
stream to the host, and show the path at every step and the size. Over the readers that the program sets up itself
the same follows with `C64_stack`. -/
theorem C64_walk_and_get {img : Bytes} {g : Geometry} (hb : BootSector img g) {U R D F : View}
    (hUi : U.img = img) (hUn : U.ntfs = Ntfs.ofGeometry g) (hm : HasMft U) (hU : RecordOf U 10)
    {usteps upre upost : List Step} {up : Step} {ur : Res (Option AttrItem)} (hfl : Flattened U usteps ur)
    {tc : Bytes} (htc : tc.length = 131072) (htab : TableStored U usteps upre upost up tc 131072)
    (hRi : R.img = img) (hRn : R.ntfs = { Ntfs.ofGeometry g with upcaseTable := some (tableOf tc) })
    (hRe : R.mftEs = U.mftEs) (hR : RecordOf R 5) {fuel : Nat}
    {ls : List (List Char × List Char)} {st : List NFile} (hw : Walk R.ntfs (tableOf tc) fuel R ls D st)
    {dsteps : List Step} {t : Node} (hD : DirOf D dsteps t (tableOf tc))
    {line arg : List Char} (hline : Typed line "get".toList arg)
    (hne : (splitStream arg).1 ≠ []) (hsl : (splitStream arg).1.head? ≠ some '/')
    {e : Ent} (he : Names (tableOf tc) t (utf16 (splitStream arg).1) e)
    (hF : RecordOf F (leNat e.head % 2 ^ 48)) (hFn : F.ntfs = R.ntfs) (hFb : F.base.ntfs = R.ntfs)
    (hFi : F.img = img) (hFe : F.mftEs = U.mftEs)
    {fsteps : List Step} {r : Res (Option AttrItem)} (hff : Flattened F fsteps r)
    {c : Bytes} {size : Nat} (hst : StreamOf F fsteps (utf16 (splitStream arg).2) c size)
    (host : Host) (hfree : host.blocked (outputName (splitStream arg).1 (splitStream arg).2) = false)
    (hf1 : usteps.length < fuel) (hf2 : dsteps.length < fuel) (hf3 : t.entries + t.nodes ≤ fuel)
    (hf4 : fsteps.length < fuel) (hf5 : c.length < fuel) (d : Dev) (hd : d.Ok img) :
    ∃ d', shellMain fuel (ls.map (fun l => some l.1) ++ [some line]) host d =
      (.ok (), (List.range (ls.length + 1)).map (fun i => .prompt (pathOf ((ls.map (·.2)).take i))) ++
        [.saving size (outputName (splitStream arg).1 (splitStream arg).2), .prompt (pathOf (ls.map (·.2)))],
        { host with files := host.files ++ [(outputName (splitStream arg).1 (splitStream arg).2, c)] }, d') := by
  obtain ⟨d1, e1, hd1⟩ := C59_start_partial hb hUi hUn hm hU hfl htc htab hRi hRn hRe hR fuel hf1 d hd
  have htk : TableOk (tableOf tc) := by
    unfold TableOk tableOf
    rw [List.length_map, List.length_range]
  have hup : R.ntfs.upcaseTable = some (tableOf tc) := by rw [hRn]
  obtain ⟨w1, d2, w2, w3⟩ := C64_walk hup htk hw [] (by simp) [] host [some line] d1 (by rw [hRi]; exact hd1)
  have hmF : HasMft F := hm.withTable (some (tableOf tc)) (by rw [hFn, hRn, hUn]) (by rw [hFi, hUi]) hFe
  obtain ⟨d3, e3, hd3⟩ := C59_by_name ⟨D.base :: (st ++ []), pathOf ([] ++ ls.map (·.2)), R.ntfs⟩ (D := D) (F := F)
    rfl hD hup htk (splitStream arg).1 hne hsl he hF hmF hFn (by rw [hFi, w1, hRi]) fuel hf2 hf3 d2
    (by rw [w1]; exact w2)
  obtain ⟨d4, e4, _⟩ := C59_get ⟨D.base :: (st ++ []), pathOf ([] ++ ls.map (·.2)), R.ntfs⟩ arg host.blocked hfree
    fuel d2 d3 (by rw [hFi, ← hRi, ← w1]; exact hd3) e3 hff (fun _ => ⟨_, by rw [hFb, hup], htk⟩) hst hf4 hf5
  refine ⟨d4, ?_⟩
  have hend : Session.loop fuel [some line]
      ⟨⟨D.base :: (st ++ []), pathOf ([] ++ ls.map (·.2)), R.ntfs⟩, host⟩ d2 =
      (.ok (), [.prompt (pathOf (ls.map (·.2))), .saving size (outputName (splitStream arg).1 (splitStream arg).2), .prompt (pathOf (ls.map (·.2)))],
        ⟨⟨D.base :: (st ++ []), pathOf ([] ++ ls.map (·.2)), R.ntfs⟩,
          { host with files := host.files ++ [(outputName (splitStream arg).1 (splitStream arg).2, c)] }⟩, d4) := by
    rw [loop_line fuel (not_ends_get hline), parse_get hline, run_get_ok e4]
    rfl
  unfold shellMain
  rw [e1]
  dsimp only
  dsimp only at w3
  rw [hend] at w3
  have w3' : Session.loop fuel (ls.map (fun l => some l.1) ++ [some line]) ⟨⟨[R.base], [], R.ntfs⟩, host⟩ d1 = _ := w3
  rw [w3']
  dsimp only
  have : ∀ x : List TermLine, (List.range ls.length).map (fun i => TermLine.prompt (pathOf ([] ++ (ls.map (·.2)).take i))) ++
      (TermLine.prompt (pathOf (ls.map (·.2))) :: x) =
      (List.range (ls.length + 1)).map (fun i => TermLine.prompt (pathOf ((ls.map (·.2)).take i))) ++ x := by
    intro x
    rw [List.range_succ, List.map_append]
    have hk : (ls.map (·.2)).take ls.length = ls.map (·.2) := List.take_of_length_le (by simp)
    simp [hk]
  rw [this]

/-! ### The hypotheses are met -/

set_option maxRecDepth 20000 in
/-- `cd a\b` on the example volume, with white space around it. -/
theorem exDisk_into : Into (exVol (some exTable)) exTable 20 exRoot exSub " cd  a\\b\n".toList "a\\b".toList :=
  ⟨"a\\b".toList, _, _, _, _, _, _, (C64_typed _ _ _).1 (by decide), by decide, by decide, exRoot_dir,
    (by rw [show utf16 "a\\b".toList = [97, 92, 98] from by decide]; exact exNames_sub),
    by decide +kernel, (exRec_records _).2.2.1, exRec_hasMft _ _ _ _, rfl, rfl, exSub_flattened, exSub_named.1,
    exSub_named.2.1, exSub_named.2.2, by decide +kernel, by decide, by decide, by decide, by decide⟩

/-- Down, and up again to what the shell takes for the directory `a` (C57): the state after the walk is as
`C64_walk` says. -/
example (host : Host) (d : Dev) (hd : d.Ok exDisk) : ∃ s d',
    Session.loop 20 [some " cd  a\\b\n".toList, some "cd ..\n".toList, some "quit".toList, none]
      ⟨⟨[exRoot.base], [], exVol (some exTable)⟩, host⟩ d =
    (.ok (), [.prompt [], .prompt "a\\b".toList, .prompt "a".toList], s, d') := by
  obtain ⟨_, d', _, h⟩ := C64_walk (ntfs := exVol (some exTable)) rfl exTable_ok (.into exDisk_into .here) [] (by simp) []
    host [some "cd ..\n".toList, some "quit".toList, none] d hd
  exact ⟨_, _, h⟩

set_option maxRecDepth 20000 in
/-- The file `f` of the example volume, on a host that has another file. -/
example (d : Dev) (hd : d.Ok exDisk) : ∃ d',
    shellMain 2000 [some "get F\r\n".toList] ⟨[("G".toList, [1])], fun n => n == []⟩ d =
      (.ok (), [.prompt [], .saving 1100 "F".toList, .prompt []],
        ⟨[("G".toList, [1]), ("F".toList, exFileBytes)], fun n => n == []⟩, d') := by
  have h := C64_walk_and_get (U := exUpcase) (R := exRoot) (D := exRoot) (F := exFile) exDisk_boot rfl rfl
    (exRec_hasMft _ _ _ _) (exRec_records none).2.1 exUpcase_flattened exDiskTable_length exUpcase_stored rfl
    (by rw [tableOf_exDiskTable]; rfl) rfl (exRec_records _).1 (fuel := 2000) .here
    (by rw [tableOf_exDiskTable]; exact exRoot_dir) (line := "get F\r\n".toList) (arg := ['F'])
    ((C64_typed _ _ _).1 (by decide)) (by decide) (by decide)
    (by rw [tableOf_exDiskTable]; exact exNames_file) (exRec_records _).2.2.2 rfl rfl rfl rfl
    exFile_flattened exFile_unnamed ⟨[("G".toList, [1])], fun n => n == []⟩ (by decide) (by decide) (by decide)
    (by decide) (by decide) (by decide +kernel) d hd
  exact h

/-- What is typed: `cd` with a tabulator behind it is not known. -/
example : Command.parse "\tget  a b:c \n".toList = .get "a b:c".toList ∧ Command.parse " \n".toList = .nothing ∧
    Command.parse "cd\t x".toList = .invalid "cd\t".toList ∧ Command.parse "Exit".toList = .invalid "Exit".toList := by
  decide

/-- The hypotheses of the theorems about sessions: lines that end it and lines that do not, and their `cd`
arguments. -/
example : Ends none ∧ Ends (some []) ∧ Ends (some "exit now\n".toList) ∧ ¬ Ends (some "\n".toList) ∧
    CdArgs [some "cd x\n".toList, some "dir\n".toList, some "cd y\n".toList, some "quit\n".toList,
      some "cd z\n".toList] ["x".toList, "y".toList] := by
  have h3 : Ends (some "exit now\n".toList) := ends_some.2 (.inr (by decide))
  refine ⟨.inl rfl, .inr (.inl rfl), h3, fun h => ?_, ?_⟩
  · rcases ends_some.1 h with h | h
    · exact absurd h (by decide)
    · exact absurd h (by decide)
  · refine .cd ?_ ((C64_typed _ _ _).1 (by decide)) (.other (w := "dir".toList) (a := []) ?_
      ((C64_typed _ _ _).1 (by decide)) (by decide) (.cd ?_ ((C64_typed _ _ _).1 (by decide))
      (.stop (ends_some.2 (.inr (by decide))))))
    all_goals
      intro h
      rcases ends_some.1 h with h | h
      · exact absurd h (by decide)
      · exact absurd h (by decide)

/-- An unreadable device: every command fails, and the session goes on to its end. -/
example (sh : Shell) (host : Host) (d : Dev) : ∃ s d',
    Session.loop 5 [some "help cd\n".toList, some "what\n".toList, some "exit\n".toList] ⟨sh, host⟩ d =
      (.ok (), [.prompt sh.path, .help .cd, .prompt sh.path, .error (.invalidCommand "what".toList),
        .prompt sh.path], s, d') :=
  ⟨_, _, rfl⟩

/-- **C57** in a session: on the example volume three `cd` lines that are answered without any error make the
next `dir` end the program. -/
theorem C64_panic_negation (host : Host) (d : Dev) (hd : d.Ok exDisk) : ∃ s d',
    Session.loop 20 [some "cd a\\b\n".toList, some "cd ..\n".toList, some "cd ..\n".toList, some "dir\n".toList,
        some "exit\n".toList]
      ⟨⟨[exRoot.base], [], exVol (some exTable)⟩, host⟩ d =
    (.panic .unwrap, [.prompt [], .prompt "a\\b".toList, .prompt "a".toList, .prompt []], s, d') := by
  have hin : Into (exVol (some exTable)) exTable 20 exRoot exSub "cd a\\b\n".toList "a\\b".toList := by
    obtain ⟨arg, st, t, e, fs, r, n, h1, h⟩ := exDisk_into
    have : arg = "a\\b".toList := by
      rw [← C64_typed] at h1
      have h2 : splitCommand " cd  a\\b\n".toList = ("cd".toList, "a\\b".toList) := by decide
      rw [h2] at h1
      injection h1 with _ h1
      exact h1.symm
    subst this
    exact ⟨_, st, t, e, fs, r, n, (C64_typed _ _ _).1 (by decide), h⟩
  obtain ⟨_, d', _, h⟩ := C64_walk (ntfs := exVol (some exTable)) rfl exTable_ok (.into hin .here) [] (by simp) []
    host [some "cd ..\n".toList, some "cd ..\n".toList, some "dir\n".toList, some "exit\n".toList] d hd
  exact ⟨_, _, h⟩

end NT
