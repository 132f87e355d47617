import Verif.Lemmas.ProgMain
import Verif.Props.C57_Navigate
import Verif.Props.C58_CommandLine
import Verif.Props.C65_Splitting

/-! C64: a whole session of the example shell: what a line means, which lines are executed, what the prompts
show, and which files a session leaves on the host. -/

namespace NT

namespace Spec

/-- The line consists of the word `w` and the argument `a`, with white space around both. The argument is
separated from the word by a space and possibly more white space. -/
inductive Typed : List Char → List Char → List Char → Prop
  | alone {before w after : List Char} : Blank before → Blank after → Tight w → ' ' ∉ w →
      Typed (before ++ w ++ after) w []
  | arg {before w gap a after : List Char} : Blank before → Blank gap → Blank after →
      w ≠ [] → (∀ c, w.head? = some c → isSpace c = false) → ' ' ∉ w → a ≠ [] → Tight a →
      Typed (before ++ (w ++ ' ' :: (gap ++ a)) ++ after) w a

/-- The words that the shell knows. -/
def knownWords : List (List Char) :=
  ["attr".toList, "attr_runs".toList, "cd".toList, "dir".toList, "exit".toList, "quit".toList,
    "fileinfo".toList, "fsinfo".toList, "get".toList, "help".toList, []]

/-- What a word with an argument stands for. -/
inductive Meaning : List Char → List Char → Command → Prop
  | attr {a} : Meaning "attr".toList a (.attr false a)
  | attrRuns {a} : Meaning "attr_runs".toList a (.attr true a)
  | cd {a} : Meaning "cd".toList a (.cd a)
  | dir {a} : Meaning "dir".toList a .dir
  | exit {a} : Meaning "exit".toList a .exit
  | quit {a} : Meaning "quit".toList a .exit
  | fileinfo {a} : Meaning "fileinfo".toList a (.fileinfo a)
  | fsinfo {a} : Meaning "fsinfo".toList a .fsinfo
  | get {a} : Meaning "get".toList a (.get a)
  | help {a} : Meaning "help".toList a (.help a)
  | nothing {a} : Meaning [] a .nothing
  | other {w a} : w ∉ knownWords → Meaning w a (.invalid w)

/-- The session ends at this line: it cannot be read, the input is at its end, or `exit` or `quit`. -/
def Ends (l : Option (List Char)) : Prop :=
  l = none ∨ l = some [] ∨ ∃ t w a, l = some t ∧ Typed t w a ∧ (w = "exit".toList ∨ w = "quit".toList)

/-- The arguments of the `cd` commands among the lines that are executed. -/
inductive CdArgs : List (Option (List Char)) → List (List Char) → Prop
  | nil : CdArgs [] []
  | stop {l rest} : Ends l → CdArgs (l :: rest) []
  | cd {t a rest args} : ¬ Ends (some t) → Typed t "cd".toList a → CdArgs rest args →
      CdArgs (some t :: rest) (a :: args)
  | other {t w a rest args} : ¬ Ends (some t) → Typed t w a → w ≠ "cd".toList → CdArgs rest args →
      CdArgs (some t :: rest) args

/-- The paths that the prompts show. -/
def prompts (out : List TermLine) : List (List Char) :=
  out.filterMap fun x => match x with
    | .prompt p => some p
    | _ => none

end Spec

open Spec

/-! ### What a line means -/

theorem dropWhile_split {α : Type} (p : α → Bool) (s : List α) :
    ∃ a, s = a ++ s.dropWhile p ∧ (∀ x ∈ a, p x = true) ∧
      ∀ x, (s.dropWhile p).head? = some x → p x = false := by
  induction s with
  | nil => exact ⟨[], rfl, by simp, by simp⟩
  | cons c s ih =>
    by_cases hc : p c = true
    · obtain ⟨a, h1, h2, h3⟩ := ih
      rw [List.dropWhile_cons_of_pos hc]
      refine ⟨c :: a, ?_, ?_, h3⟩
      · rw [List.cons_append, ← h1]
      · intro x hx
        rcases List.mem_cons.1 hx with rfl | hx
        · exact hc
        · exact h2 x hx
    · rw [List.dropWhile_cons_of_neg hc]
      exact ⟨[], rfl, by simp, fun x hx => by
        rw [List.head?_cons] at hx
        injection hx with hx
        subst hx
        simpa using hc⟩

theorem trim_split (s : List Char) : ∃ a c, Blank a ∧ Blank c ∧ Tight (trim s) ∧ s = a ++ trim s ++ c := by
  obtain ⟨a, h1, h2, h3⟩ := dropWhile_split isSpace s
  obtain ⟨c, k1, k2, k3⟩ := dropWhile_split isSpace (trimStart s).reverse
  rw [← trimStart_eq] at h1 h3
  rw [← trimStart_eq] at k1 k3
  have e : trimStart s = trim s ++ c.reverse := by
    have : trimStart s = ((trimStart s).reverse).reverse := by simp
    rw [this, k1, List.reverse_append]
    rfl
  refine ⟨a, c.reverse, h2, fun x hx => k2 x (by simpa using hx), ⟨?_, ?_⟩, ?_⟩
  · intro x hx
    have : (trimStart s).head? = some x := by
      rw [e, List.head?_append, hx]
      rfl
    exact h3 x this
  · intro x hx
    unfold trim at hx
    rw [List.getLast?_reverse] at hx
    exact k3 x hx
  · rw [List.append_assoc, ← e]
    exact h1

theorem takeWhile_split {α : Type} (p : α → Bool) (s : List α) : s = s.takeWhile p ++ s.dropWhile p :=
  List.takeWhile_append_dropWhile.symm

theorem takeWhile_free (s : List Char) : ' ' ∉ s.takeWhile (· ≠ ' ') := by
  induction s with
  | nil => simp
  | cons c s ih =>
    by_cases h : c = ' '
    · rw [List.takeWhile_cons_of_neg (by simp [h])]
      simp
    · rw [List.takeWhile_cons_of_pos (by simp [h])]
      intro hm
      rcases List.mem_cons.1 hm with hm | hm
      · exact h hm.symm
      · exact ih hm

/-- **C64**: every line has exactly one reading as a word and an argument, and it is the one of the shell. -/
theorem C64_typed (line w a : List Char) : splitCommand line = (w, a) ↔ Typed line w a := by
  constructor
  · intro h
    obtain ⟨x, y, hx, hy, ht, e⟩ := trim_split line
    unfold splitCommand at h
    dsimp only at h
    generalize trim line = t at ht e h
    injection h with h1 h2
    have hsp : ' ' ∉ w := by
      rw [← h1]
      intro hm
      exact takeWhile_free t hm
    have e1 := takeWhile_split (· ≠ ' ') t
    rw [h1] at e1
    obtain ⟨g, k1, k2, k3⟩ := dropWhile_split isSpace (t.dropWhile (· ≠ ' '))
    rw [← trimStart_eq] at k1 k3
    have k1' : t.dropWhile (· ≠ ' ') = g ++ a := by
      rw [← h2]
      exact k1
    rw [k1'] at e1
    have k3' : ∀ x, a.head? = some x → isSpace x = false := by
      intro x hx
      refine k3 x ?_
      rw [← h2] at hx
      exact hx
    have hcase : t.dropWhile (· ≠ ' ') = [] ∨ ∃ r, t.dropWhile (· ≠ ' ') = ' ' :: r := by
      cases hd : t.dropWhile (· ≠ ' ') with
      | nil => exact .inl rfl
      | cons c r =>
        right
        obtain ⟨_, _, _, q⟩ := dropWhile_split (· ≠ ' ') t
        have := q c (by rw [hd]; rfl)
        simp at this
        exact ⟨r, by rw [this]⟩
    rcases hcase with hd | ⟨r, hd⟩
    · rw [hd] at k1'
      obtain ⟨hg, ha⟩ := List.append_eq_nil_iff.1 k1'.symm
      subst ha
      rw [hg, List.append_nil, List.append_nil] at e1
      subst e1
      rw [e]
      exact .alone hx hy ht hsp
    · rw [hd] at k1'
      have hane : a ≠ [] := by
        intro ha
        subst ha
        rw [List.append_nil] at k1' e1
        have hgl : t.getLast? = g.getLast? := by
          rw [e1, ← k1', List.getLast?_append]
          cases h : (' ' :: r).getLast? with
          | none => simp at h
          | some z => rfl
        cases hg : g.getLast? with
        | none =>
          rw [← k1'] at hg
          simp at hg
        | some z =>
          rw [hg] at hgl
          have := ht.2 z hgl
          rw [k2 z (List.mem_of_getLast? hg)] at this
          exact absurd this (by simp)
      have hat : Tight a := by
        refine ⟨k3', fun c hc => ht.2 c ?_⟩
        rw [e1, List.getLast?_append, List.getLast?_append, hc]
        rfl
      cases g with
      | nil =>
        rw [List.nil_append] at k1'
        have := k3' ' ' (by rw [← k1']; rfl)
        exact absurd this (by decide)
      | cons c g =>
        rw [List.cons_append] at k1'
        injection k1' with hc hr
        subst hc
        have hwne : w ≠ [] := by
          intro hw
          subst hw
          rw [List.nil_append] at e1
          have := ht.1 ' ' (by rw [e1]; rfl)
          exact absurd this (by decide)
        rw [e, e1]
        refine .arg hx (fun z hz => k2 z (List.mem_cons_of_mem _ hz)) hy hwne ?_ hsp hane hat
        intro c hc
        refine ht.1 c ?_
        rw [e1, List.head?_append, hc]
        rfl
  · intro h
    cases h with
    | alone h1 h2 h3 h4 => exact C58_command_alone h1 h2 h3 h4
    | @arg before _ gap _ after h1 h2 h3 h4 h5 h6 h7 h8 =>
      have ht : Tight (w ++ ' ' :: (gap ++ a)) := by
        constructor
        · intro c hc
          refine h5 c ?_
          cases w with
          | nil => exact absurd rfl h4
          | cons y w => exact hc
        · intro c hc
          refine h8.2 c ?_
          have : w ++ ' ' :: (gap ++ a) = (w ++ ' ' :: gap) ++ a := by simp
          rw [this, List.getLast?_append] at hc
          cases hl : a.getLast? with
          | none => exact absurd (by simpa using hl) h7
          | some z =>
            rw [hl] at hc
            exact hc
      unfold splitCommand
      rw [trim_pad h1 ht h3]
      dsimp only
      rw [(takeWhile_stop h6).1, (takeWhile_stop h6).2]
      have hbl : Blank (' ' :: gap) := by
        intro c hc
        rcases List.mem_cons.1 hc with rfl | hc
        · decide
        · exact h2 c hc
      have : trimStart (' ' :: (gap ++ a)) = a := by
        have e : ' ' :: (gap ++ a) = (' ' :: gap) ++ a := rfl
        rw [e, trimStart_blank hbl, trimStart_eq]
        exact dropWhile_eq_self _ _ h8.1
      rw [this]

/-- **C64**: the command of a line, for every line. -/
theorem C64_command (line : List Char) (c : Command) :
    Command.parse line = c ↔ ∃ w a, Typed line w a ∧ Meaning w a c := by
  have key : ∀ w a, Typed line w a → Meaning w a (Command.parse line) := by
    intro w a h
    rw [← C64_typed] at h
    unfold Command.parse
    rw [h]
    dsimp only
    split; · rename_i h; subst h; exact .attr
    split; · rename_i h; subst h; exact .attrRuns
    split; · rename_i h; subst h; exact .cd
    split; · rename_i h; subst h; exact .dir
    split
    · rename_i h
      rcases h with h | h
      · subst h; exact .exit
      · subst h; exact .quit
    split; · rename_i h; subst h; exact .fileinfo
    split; · rename_i h; subst h; exact .fsinfo
    split; · rename_i h; subst h; exact .get
    split; · rename_i h; subst h; exact .help
    split; · rename_i h; subst h; exact .nothing
    rename_i h1 h2 h3 h4 h5 h6 h7 h8 h9 h10
    refine .other ?_
    simp only [knownWords, List.mem_cons, List.not_mem_nil, or_false, not_or]
    exact ⟨h1, h2, h3, h4, (not_or.1 h5).1, (not_or.1 h5).2, h6, h7, h8, h9, h10⟩
  constructor
  · rintro rfl
    exact ⟨_, _, (C64_typed line _ _).1 rfl, key _ _ ((C64_typed line _ _).1 rfl)⟩
  · rintro ⟨w, a, h1, h2⟩
    rw [← C64_typed] at h1
    unfold Command.parse
    rw [h1]
    dsimp only
    cases h2 with
    | other h =>
      simp only [knownWords, List.mem_cons, List.not_mem_nil, or_false, not_or] at h
      obtain ⟨h1, h2, h3, h4, h5, h6, h7, h8, h9, h10, h11⟩ := h
      rw [if_neg h1, if_neg h2, if_neg h3, if_neg h4, if_neg (not_or.2 ⟨h5, h6⟩), if_neg h7, if_neg h8,
        if_neg h9, if_neg h10, if_neg h11]
    | _ => rfl

end NT
