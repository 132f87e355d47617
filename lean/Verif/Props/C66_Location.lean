import Verif.Props.C64_Lines

/-! C66: where `get` writes. The help of the shell promises "the current directory of your local filesystem"
(`examples/ntfs-shell/main.rs:583`), also for the form `get /5` that it gives as an example (main.rs:620-623). -/

namespace NT

namespace Spec

/-- A path, as POSIX resolves it, that is the name of an entry of the current directory. -/
def InCurrentDirectory (path : List Char) : Prop :=
  path ≠ [] ∧ '/' ∉ path ∧ path ≠ ['.'] ∧ path ≠ ['.', '.']

/-- A host that creates no file without a name, and none in place of the current directory or its parent. -/
structure Posix (h : Host) : Prop where
  empty : h.refuses [] = true
  here : h.refuses ['.'] = true
  parent : h.refuses ['.', '.'] = true

end Spec

open Spec

theorem mem_outputName (a : List Char) : '/' ∈ outputName (splitStream a).1 (splitStream a).2 ↔ '/' ∈ a := by
  by_cases hc : ':' ∈ a
  · obtain ⟨f, s, rfl, hf⟩ := List.eq_append_cons_of_mem hc
    rw [(C58_stream f s hf).1]
    unfold outputName
    split
    · next h => rw [show s = [] from h]; simp
    · simp
  · rw [(C58_stream a [] hc).2]
    unfold outputName
    rw [if_pos rfl]

/-- **C66**, as far as it holds: in every session, whatever the device does, a file that `get` creates lies in the
current directory of the host exactly if the argument of that `get` has no slash. Missing: the arguments with a slash,
in particular the documented form `/5` (see `C66_negation`). -/
theorem C66_location_partial (fuel : Nat) (lines : List (Option (List Char))) (s : Session) (d : Dev)
    (hp : Posix s.host) :
    ∃ new, (Session.loop fuel lines s d).2.2.1.host = { s.host with files := s.host.files ++ new } ∧
      ∀ f ∈ new, ∃ t a, some t ∈ lines ∧ Typed t "get".toList a ∧ (InCurrentDirectory f.1 ↔ '/' ∉ a) := by
  obtain ⟨new, h1, h2, _, h4⟩ := C64_host fuel lines s d
  refine ⟨new, h1, fun f hf => ?_⟩
  obtain ⟨pre, t, post, a, e1, _, e3, e4⟩ := h4 f hf
  refine ⟨t, a, by rw [e1]; simp, e3, ?_⟩
  have hb := h2 f hf
  have hne : ∀ x, s.host.refuses x = true → f.1 ≠ x := by
    intro x hx hfx
    unfold Host.blocked at hb
    rw [hfx, hx] at hb
    cases hb
  unfold InCurrentDirectory
  rw [← mem_outputName a, ← e4]
  exact ⟨fun h => h.2.1, fun h => ⟨hne _ hp.empty, h, hne _ hp.here, hne _ hp.parent⟩⟩

/-- **C66** fails for the documented form `get /5`: whatever the volume and the device are, the output file is not in
the current directory; if the host allows it, it is created at that place of the root directory. -/
theorem C66_negation (fuel : Nat) (a : List Char) (s : Session) (d : Dev)
    (hfree : s.host.blocked (outputName (splitStream ('/' :: a)).1 (splitStream ('/' :: a)).2) = false) :
    ∃ name b, (s.run fuel (.get ('/' :: a)) d).2.2.1.host = { s.host with files := s.host.files ++ [(name, b)] } ∧
      name.head? = some '/' ∧ ¬ InCurrentDirectory name := by
  refine ⟨outputName (splitStream ('/' :: a)).1 (splitStream ('/' :: a)).2, ?_⟩
  have hs : ¬ InCurrentDirectory (outputName (splitStream ('/' :: a)).1 (splitStream ('/' :: a)).2) :=
    fun h => h.2.1 ((mem_outputName _).2 (by simp))
  have hh : (outputName (splitStream ('/' :: a)).1 (splitStream ('/' :: a)).2).head? = some '/' := by
    have : (splitStream ('/' :: a)).1 = '/' :: a.takeWhile (· ≠ ':') := rfl
    unfold outputName
    rw [this]
    split <;> rfl
  rcases C64_announced fuel ('/' :: a) s d with ⟨_, _, ⟨h, _⟩ | ⟨_, h⟩⟩ | ⟨_, _, b, _, _, _, h⟩
  · rw [hfree] at h
    cases h
  · exact ⟨[], by rw [h], hh, hs⟩
  · exact ⟨b, by rw [h], hh, hs⟩

/-! ### The hypotheses are met -/

/-- A host that behaves like POSIX, with one file. -/
def exPosix : Host := ⟨[("G".toList, [1])], fun n => n == [] || n == ['.'] || n == ['.', '.']⟩

theorem exPosix_ok : Posix exPosix := ⟨rfl, rfl, rfl⟩

/-- On the example volume `get /0xc` succeeds, and puts the file into the root directory of the host. -/
example : Answers 2000 exDisk { exSession with host := exPosix } "get /0xc\n".toList [.saving 1100 "/0xc".toList]
    { exSession with host := { exPosix with files := exPosix.files ++ [("/0xc".toList, exFileBytes)] } } :=
  (C64_get (F := exFile) (s := { exSession with host := exPosix }) (line := "get /0xc\n".toList)
    ⟨exHere.size, exHere.top, exHere.dir, exHere.table, exHere.tableOk, exHere.fuel⟩
    (exRec_hasMft _ _ _ _) rfl rfl rfl ((C64_typed _ _ "/0xc".toList).1 (by decide))
    (.number (n := 12) (by decide) (exRec_records _).2.2.2) exFile_flattened (by decide) (by decide)).1 _ _
    exFile_unnamed (by decide +kernel)

example : exPosix.blocked (outputName (splitStream "/5:s".toList).1 (splitStream "/5:s".toList).2) = false ∧
    InCurrentDirectory (outputName (splitStream "a:s".toList).1 (splitStream "a:s".toList).2) :=
  ⟨by decide, by decide, by decide, by decide, by decide⟩

example (d : Dev) := C66_location_partial 9 [some "get F\n".toList] { exSession with host := exPosix } d exPosix_ok

end NT
