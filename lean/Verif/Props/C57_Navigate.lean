import Verif.Model.Shell

/-! C57: the prompt of the example shell and the directory it stands for. -/

namespace NT

namespace Spec

/-- The path string of the directories with the given names, the outermost one first. -/
def pathOf : List (List Char) → List Char
  | [] => []
  | [n] => n
  | n :: m :: rest => n ++ '\\' :: pathOf (m :: rest)

/-- A name that can be shown as one component of a path. -/
def Component (n : List Char) : Prop := n ≠ [] ∧ '\\' ∉ n

/-- The path string has one component for every directory below the root. -/
def InStep (s : Shell) : Prop :=
  ∃ names : List (List Char), s.stack.length = names.length + 1 ∧ (∀ n ∈ names, Component n) ∧
    s.path = pathOf names

end Spec

open Spec

theorem pathOf_ne_nil {names : List (List Char)} (h : ∀ n ∈ names, Component n) (hn : names ≠ []) :
    pathOf names ≠ [] := by
  match names with
  | [] => exact absurd rfl hn
  | [n] => exact (h n (by simp)).1
  | n :: m :: rest =>
    intro e
    simp [pathOf] at e

theorem pathOf_snoc {names : List (List Char)} (h : ∀ n ∈ names, Component n) (n : List Char) :
    pathOf (names ++ [n]) = extendPath (pathOf names) n := by
  induction names with
  | nil => simp [pathOf, extendPath]
  | cons a rest ih =>
    have ih := ih fun x hx => h x (by simp [hx])
    cases rest with
    | nil =>
      have ha := (h a (by simp)).1
      simp [pathOf, extendPath, ha]
    | cons b rest =>
      have hne := pathOf_ne_nil (names := b :: rest) (fun x hx => h x (by simp [hx])) (by simp)
      have e1 : pathOf ((a :: b :: rest) ++ [n]) = a ++ '\\' :: pathOf ((b :: rest) ++ [n]) := rfl
      have e2 : pathOf (a :: b :: rest) = a ++ '\\' :: pathOf (b :: rest) := rfl
      rw [e1, ih, e2]
      unfold extendPath
      rw [if_neg hne, if_neg (by simp)]
      simp

theorem dropWhile_ne {l : List Char} (h : '\\' ∉ l) (r : List Char) :
    (l ++ r).dropWhile (· ≠ '\\') = r.dropWhile (· ≠ '\\') := by
  induction l with
  | nil => rfl
  | cons a l ih =>
    have : a ≠ '\\' := fun e => h (by simp [e])
    simp only [List.cons_append, List.dropWhile_cons, this, decide_true, ne_eq, not_false_iff, if_true]
    exact ih fun hh => h (by simp [hh])

/-- Up to the last backslash. -/
theorem cutLast_append (p n : List Char) (h : '\\' ∉ n) : cutLast (p ++ '\\' :: n) = p := by
  unfold cutLast
  have : (p ++ '\\' :: n).reverse = n.reverse ++ '\\' :: p.reverse := by simp
  rw [this, dropWhile_ne (by simpa using h)]
  simp

theorem cutLast_none (n : List Char) (h : '\\' ∉ n) : cutLast n = [] := by
  unfold cutLast
  have := dropWhile_ne (l := n.reverse) (by simpa using h) []
  rw [List.append_nil] at this
  rw [this]
  rfl

theorem cutLast_extendPath (p n : List Char) (h : '\\' ∉ n) : cutLast (extendPath p n) = p := by
  unfold extendPath
  split
  · rename_i hp
    rw [hp]; exact cutLast_none n h
  · have : p ++ ['\\'] ++ n = p ++ '\\' :: n := by simp
    rw [this, cutLast_append p n h]

/-- A string with a backslash is cut at the last one. -/
theorem exists_last {n : List Char} (h : '\\' ∈ n) : ∃ a b, n = a ++ '\\' :: b ∧ '\\' ∉ b := by
  induction n with
  | nil => cases h
  | cons c n ih =>
    by_cases hn : '\\' ∈ n
    · obtain ⟨a, b, rfl, hb⟩ := ih hn
      exact ⟨c :: a, b, rfl, hb⟩
    · simp only [List.mem_cons] at h
      rcases h with h | h
      · exact ⟨[], n, by rw [← h]; rfl, hn⟩
      · exact absurd h hn

theorem StM.bind_eq_ok {σ α β : Type} {m : StM σ α} {k : α → StM σ β} {s s' : σ} {b : β} :
    (m >>= k) s = (.ok b, s') ↔ ∃ a s1, m s = (.ok a, s1) ∧ k a s1 = (.ok b, s') := by
  rw [StM.bind_apply]
  cases m s with
  | mk r s1 =>
    cases r with
    | ok a => exact ⟨fun h => ⟨a, s1, rfl, h⟩, fun ⟨a', s2, h1, h2⟩ => by
        injection h1 with h1 h3
        injection h1 with h1
        subst h1 h3
        exact h2⟩
    | err e => exact ⟨fun h => (by cases h), fun ⟨a', s2, h1, h2⟩ => (by cases h1)⟩
    | panic e => exact ⟨fun h => (by cases h), fun ⟨a', s2, h1, h2⟩ => (by cases h1)⟩
    | diverge => exact ⟨fun h => (by cases h), fun ⟨a', s2, h1, h2⟩ => (by cases h1)⟩

/-- What `cd` with a name does: either the shell stays as it is, or it enters a directory: the file the
found entry refers to, under its best name in the current directory. -/
inductive CdInto (s : Shell) (fuel : Nat) : Option ShellMsg × Shell → Prop
  | stays (m : ShellMsg) : CdInto s fuel (some m, s)
  | enters (dir f : NFile) (n : FileName) (d d' : Dev) : s.last = .ok dir →
      bestFileName f dir.fileRecordNumber fuel d = (.ok (.ok n), d') →
      CdInto s fuel (none, { s with stack := f :: s.stack, path := extendPath s.path (lossy (u16s n.name)) })

theorem Shell.cdInto_cases (s : Shell) (arg : List Char) (fuel : Nat) (d d' : Dev)
    (r : Option ShellMsg × Shell) (h : s.cdInto arg fuel d = (.ok r, d')) : CdInto s fuel r := by
  unfold Shell.cdInto at h
  obtain ⟨dir, d1, e1, h⟩ := StM.bind_eq_ok.1 h
  obtain ⟨ix, d2, e2, h⟩ := StM.bind_eq_ok.1 h
  obtain ⟨o, d3, e3, h⟩ := StM.bind_eq_ok.1 h
  have hlast : s.last = .ok dir := by
    rw [StM.lift_apply] at e1
    injection e1
  cases o with
  | none =>
    injection h with h _
    injection h with h
    subst h
    exact .stays _
  | some e =>
    obtain ⟨key, d4, e4, h⟩ := StM.bind_eq_ok.1 h
    cases hk : key.isDirectory with
    | false =>
      rw [hk] at h
      injection h with h _
      injection h with h
      subst h
      exact .stays _
    | true =>
      rw [hk] at h
      obtain ⟨f, d5, e5, h⟩ := StM.bind_eq_ok.1 h
      obtain ⟨b, d6, e6, h⟩ := StM.bind_eq_ok.1 h
      cases b with
      | error m =>
        injection h with h _
        injection h with h
        subst h
        exact .stays _
      | ok n =>
        injection h with h _
        injection h with h
        subst h
        exact .enters dir f n d5 d6 hlast e6

/-- **C57**: `cd` either leaves the shell as it is, or it goes up by `..`, or it enters a directory with
one more component in the path. -/
theorem C57_cd (s s' : Shell) (arg : List Char) (fuel : Nat) (d d' : Dev) (m : Option ShellMsg)
    (h : s.cd arg fuel d = (.ok (m, s'), d')) :
    s' = s ∨
    (m = none ∧ arg = ['.', '.'] ∧ s.path ≠ [] ∧ s' = { s with stack := s.stack.drop 1, path := cutLast s.path }) ∨
    (m = none ∧ ∃ dir f n e e', s.last = .ok dir ∧
      bestFileName f dir.fileRecordNumber fuel e = (.ok (.ok n), e') ∧
      s'.stack = f :: s.stack ∧ s'.path = extendPath s.path (lossy (u16s n.name)) ∧ s'.ntfs = s.ntfs) := by
  unfold Shell.cd at h
  split at h
  · injection h with h _
    injection h with h
    injection h with _ h
    exact .inl h.symm
  · split at h
    · split at h
      · injection h with h _
        injection h with h
        injection h with _ h
        exact .inl h.symm
      · injection h with h _
        injection h with h
        injection h with hm h
        exact .inr (.inl ⟨hm.symm, by assumption, by assumption, h.symm⟩)
    · have := Shell.cdInto_cases s arg fuel d d' _ h
      generalize hr : (m, s') = r at this
      cases this with
      | stays m' =>
        injection hr with _ hr
        exact .inl hr
      | enters dir f n e e' h1 h2 =>
        injection hr with hm hr
        subst hr
        exact .inr (.inr ⟨hm, dir, f, n, e, e', h1, h2, rfl, rfl, rfl⟩)

/-- **C57**: the root is in step. -/
theorem C57_start (root : NFile) (ntfs : Ntfs) : InStep ⟨[root], [], ntfs⟩ :=
  ⟨[], rfl, by simp, rfl⟩

/-- **C57**: while the shell is in step, `cd ..` goes up by exactly one directory and one component, and
does nothing exactly in the root. -/
theorem C57_up (s : Shell) (h : InStep s) (fuel : Nat) (d : Dev) :
    ∃ s', s.cd ['.', '.'] fuel d = (.ok (none, s'), d) ∧ InStep s' ∧
      (∀ root, s.stack = [root] → s' = s) ∧
      (∀ f g rest, s.stack = f :: g :: rest → s'.stack = g :: rest ∧
        ∃ n, Component n ∧ s.path = extendPath s'.path n) := by
  obtain ⟨names, h1, h2, h3⟩ := h
  unfold Shell.cd
  rw [if_neg (by decide), if_pos rfl]
  rcases List.eq_nil_or_concat names with rfl | ⟨names, n, rfl⟩
  · have h3' : s.path = [] := h3
    rw [if_pos h3']
    refine ⟨s, rfl, ⟨[], h1, h2, h3⟩, fun _ _ => rfl, ?_⟩
    intro f g rest hs
    rw [hs] at h1
    simp at h1
  · have h2' : ∀ m ∈ names, Component m := fun m hm => h2 m (by simp [hm])
    have hn : Component n := h2 n (by simp)
    have hp : s.path = extendPath (pathOf names) n := by rw [h3, List.concat_eq_append, pathOf_snoc h2']
    have hne : s.path ≠ [] := by rw [h3]; exact pathOf_ne_nil h2 (by simp)
    rw [if_neg hne]
    have hc : cutLast s.path = pathOf names := by rw [hp, cutLast_extendPath _ _ hn.2]
    simp only [List.concat_eq_append, List.length_append, List.length_cons, List.length_nil] at h1
    refine ⟨_, rfl, ⟨names, by simp only [List.length_drop]; omega, h2', hc⟩, ?_, ?_⟩
    · intro root hs
      rw [hs] at h1
      simp at h1
    · intro f g rest hs
      refine ⟨by simp only [hs, List.drop_succ_cons, List.drop_zero], n, hn, ?_⟩
      dsimp only
      rw [hc, hp]

/-- **C57**: entering a directory and going up again gives back the shell as it was exactly if the name
of the directory has no backslash and is not an empty name in the root (or, in the root, is a backslash
before a name without one). -/
theorem C57_back_iff (s : Shell) (f : NFile) (n : List Char) (fuel : Nat) (d : Dev) :
    Shell.cd { s with stack := f :: s.stack, path := extendPath s.path n } ['.', '.'] fuel d =
        (.ok (none, s), d) ↔
      ('\\' ∉ n ∧ (s.path = [] → n ≠ [])) ∨ (s.path = [] ∧ ∃ b, n = '\\' :: b ∧ '\\' ∉ b) := by
  unfold Shell.cd
  rw [if_neg (by decide), if_pos rfl]
  dsimp only
  have hs : ∀ p, ((Res.ok ((none : Option ShellMsg), ({ s with path := p } : Shell)), d) =
      ((Res.ok ((none : Option ShellMsg), s), d) : Res (Option ShellMsg × Shell) × Dev)) ↔ p = s.path := by
    intro p
    constructor
    · intro h
      injection h with h _
      injection h with h
      injection h with _ h
      rw [← h]
    · rintro rfl; rfl
  by_cases he : extendPath s.path n = []
  · rw [if_pos he]
    have : s.path = [] ∧ n = [] := by
      unfold extendPath at he
      split at he
      · exact ⟨by assumption, by simpa using he⟩
      · simp at he
    constructor
    · intro h
      injection h with h _
      injection h with h
      injection h with _ h
      have := congrArg (fun x : Shell => x.stack.length) h
      simp at this
    · rintro (⟨_, h⟩ | ⟨_, b, h, _⟩)
      · exact absurd this.2 (h this.1)
      · rw [this.2] at h; cases h
  · rw [if_neg he]
    refine (hs _).trans ?_
    by_cases hb : '\\' ∈ n
    · obtain ⟨a, b, rfl, hb'⟩ := exists_last hb
      have hcut : cutLast (extendPath s.path (a ++ '\\' :: b)) = extendPath s.path a := by
        unfold extendPath
        rw [← List.append_assoc, cutLast_append _ _ hb']
      rw [hcut]
      constructor
      · intro h
        right
        unfold extendPath at h
        split at h
        · rename_i hp
          rw [hp, List.nil_append] at h
          exact ⟨hp, b, by rw [h]; rfl, hb'⟩
        · have := congrArg List.length h
          simp at this
      · rintro (⟨h, _⟩ | ⟨hp, b', h, hb''⟩)
        · exact absurd hb h
        · have : a = [] := by
            cases a with
            | nil => rfl
            | cons x a =>
              rw [List.cons_append] at h
              injection h with h1 h2
              rw [← h2] at hb''
              simp at hb''
          rw [this, hp]
          rfl
    · rw [cutLast_extendPath _ _ hb]
      constructor
      · intro _
        refine .inl ⟨hb, fun hp hn => he ?_⟩
        rw [hp, hn]; rfl
      · intro _; rfl

/-- **C57**, what holds of the whole claim: starting in step, after every sequence of `cd` commands (also
of failing ones) the shell is in step, so that the path has one component per directory and there is a
current directory; unless the shell entered a directory on the way whose name is empty or has a
backslash. The claim without this exception is refuted by `C57_negation`. -/
theorem C57_session_partial (fuel : Nat) (args : List (List Char)) (s s' : Shell) (d d' : Dev)
    (hs : InStep s) (h : Shell.cds fuel args s d = (.ok s', d')) :
    InStep s' ∨ ∃ pre arg post s1 d1 s2 d2 f n, args = pre ++ arg :: post ∧
      Shell.cds fuel pre s d = (.ok s1, d1) ∧ InStep s1 ∧ s1.cd arg fuel d1 = (.ok (none, s2), d2) ∧
      s2.stack = f :: s1.stack ∧ s2.path = extendPath s1.path n ∧ ¬ Component n := by
  induction args generalizing s d with
  | nil =>
    injection h with h _
    injection h with h
    exact .inl (h ▸ hs)
  | cons arg args ih =>
    unfold Shell.cds at h
    cases hcd : s.cd arg fuel d with
    | mk r d1 =>
      rw [hcd] at h
      have step : ∀ t, InStep t → Shell.cds fuel args t d1 = (.ok s', d') →
          (∀ pre, Shell.cds fuel (arg :: pre) s d = Shell.cds fuel pre t d1) → InStep s' ∨
          ∃ pre arg' post s1 d1 s2 d2 f n, arg :: args = pre ++ arg' :: post ∧
            Shell.cds fuel pre s d = (.ok s1, d1) ∧ InStep s1 ∧ s1.cd arg' fuel d1 = (.ok (none, s2), d2) ∧
            s2.stack = f :: s1.stack ∧ s2.path = extendPath s1.path n ∧ ¬ Component n := by
        intro t ht hrun hpre
        rcases ih t d1 ht hrun with h' | ⟨pre, arg', post, s1, d2, s2, d3, f, n, g1, g2, g3, g4, g5, g6, g7⟩
        · exact .inl h'
        · exact .inr ⟨arg :: pre, arg', post, s1, d2, s2, d3, f, n, by rw [g1]; rfl, by rw [hpre, g2],
            g3, g4, g5, g6, g7⟩
      cases r with
      | panic p => cases h
      | diverge => cases h
      | err e =>
        refine step s hs h fun pre => ?_
        conv => lhs; unfold Shell.cds
        rw [hcd]
      | ok r =>
        obtain ⟨m, t⟩ := r
        have hpre : ∀ pre, Shell.cds fuel (arg :: pre) s d = Shell.cds fuel pre t d1 := by
          intro pre
          conv => lhs; unfold Shell.cds
          rw [hcd]
        rcases C57_cd s t arg fuel d d1 m hcd with rfl | ⟨rfl, rfl, _, _⟩ |
          ⟨rfl, dir, f, n, e, e', _, _, k1, k2, _⟩
        · exact step t hs h hpre
        · obtain ⟨t', g1, g2, _⟩ := C57_up s hs fuel d
          rw [hcd] at g1
          injection g1 with g1 _
          injection g1 with g1
          injection g1 with _ g1
          subst g1
          exact step _ g2 h hpre
        · by_cases hc : Component (lossy (u16s n.name))
          · refine step t ?_ h hpre
            obtain ⟨names, h1, h2, h3⟩ := hs
            refine ⟨names ++ [lossy (u16s n.name)], ?_, ?_, ?_⟩
            · rw [k1]; simp [h1]
            · intro x hx
              simp only [List.mem_append, List.mem_cons, List.not_mem_nil, or_false] at hx
              rcases hx with hx | rfl
              · exact h2 x hx
              · exact hc
            · rw [k2, h3, pathOf_snoc h2]
          · exact .inr ⟨[], arg, args, s, d, t, d1, f, _, rfl, rfl, hs, hcd, k1, k2, hc⟩

/-- **C57**: in step there is a current directory, so no command fails for lack of one. -/
theorem C57_current (s : Shell) (h : InStep s) : ∃ f rest, s.stack = f :: rest ∧ s.last = .ok f := by
  obtain ⟨names, h1, _⟩ := h
  unfold Shell.last
  cases hs : s.stack with
  | nil => rw [hs] at h1; simp at h1
  | cons f rest => exact ⟨f, rest, rfl, rfl⟩

/-! ### The hypotheses can be met -/

/-- In the directory `c` of the directory `ab`. -/
theorem exInStep (root f g : NFile) (ntfs : Ntfs) : InStep ⟨[g, f, root], ['a', 'b', '\\', 'c'], ntfs⟩ :=
  ⟨[['a', 'b'], ['c']], rfl, by unfold Component; decide, rfl⟩

/-- Three times up from there, with a device that fails at once: up, up, and nothing. -/
example (root f g : NFile) (ntfs : Ntfs) (d : Dev) :
    Shell.cds 1 [['.', '.'], ['.', '.'], ['.', '.']] ⟨[g, f, root], ['a', 'b', '\\', 'c'], ntfs⟩ d =
      (.ok ⟨[root], [], ntfs⟩, d) := rfl

example (root f g : NFile) (ntfs : Ntfs) (d : Dev) :
    InStep ⟨[root], [], ntfs⟩ ∨ ∃ pre arg post s1 d1 s2 d2 f' n,
      [['.', '.'], ['.', '.'], ['.', '.']] = pre ++ arg :: post ∧
      Shell.cds 1 pre ⟨[g, f, root], ['a', 'b', '\\', 'c'], ntfs⟩ d = (.ok s1, d1) ∧ InStep s1 ∧
      s1.cd arg 1 d1 = (.ok (none, s2), d2) ∧ s2.stack = f' :: s1.stack ∧
      s2.path = extendPath s1.path n ∧ ¬ Component n :=
  C57_session_partial 1 _ _ _ d d (exInStep root f g ntfs) rfl

/-- The other theorems on that shell: up, and where it is. -/
example (root f g : NFile) (ntfs : Ntfs) (d : Dev) := C57_cd ⟨[g, f, root], ['a', 'b', '\\', 'c'], ntfs⟩ _ ['.', '.'] 1 d d none rfl
example (root f g : NFile) (ntfs : Ntfs) (d : Dev) := C57_up _ (exInStep root f g ntfs) 1 d
example (root f g : NFile) (ntfs : Ntfs) := C57_current _ (exInStep root f g ntfs)

end NT
