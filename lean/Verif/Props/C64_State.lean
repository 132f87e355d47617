import Verif.Props.C64_Loop

/-! C64: what a session depends on, and what it leaves behind. -/

namespace NT

open Spec

theorem Rep.one4 {α τ υ : Type} {f : Dev → α × τ × υ × Dev} (h : Rep mk4 f) :
    OneResult fun d => (((f d).1, (f d).2.1, (f d).2.2.1), (f d).2.2.2) := by
  intro img hi
  obtain ⟨r, hr⟩ := h.settled img hi
  refine ⟨r, fun d h1 h2 => ?_⟩
  obtain ⟨d', ⟨g1, g2⟩, g3⟩ := hr d ⟨h1, h2⟩
  dsimp only
  rw [g3]
  exact ⟨rfl, g1, g2⟩

theorem Rep.prog4 {α τ υ : Type} {f : Dev → α × τ × υ × Dev} (h : Rep mk4 f) :
    ∃ t, Implements t fun d => (((f d).1, (f d).2.1, (f d).2.2.1), (f d).2.2.2) := by
  obtain ⟨t, ht⟩ := h.asks
  refine ⟨t, fun d hd => ?_⟩
  dsimp only
  rw [ht d hd]

/-- **C64**: a session, and the whole program, has one result on all devices with the same contents that do not
fail: everything that is shown, the final state and all files written, down to the last byte. -/
theorem C64_one_result (fuel : Nat) (lines : List (Option (List Char))) :
    (∀ s, OneResult fun d => (((Session.loop fuel lines s d).1, (Session.loop fuel lines s d).2.1,
      (Session.loop fuel lines s d).2.2.1), (Session.loop fuel lines s d).2.2.2)) ∧
    (∀ h, OneResult fun d => (((shellMain fuel lines h d).1, (shellMain fuel lines h d).2.1,
      (shellMain fuel lines h d).2.2.1), (shellMain fuel lines h d).2.2.2)) :=
  ⟨fun s => (Session.loop_rep fuel lines s).one4, fun h => (shellMain_rep fuel lines h).one4⟩

/-- **C64**: the whole program over the readers that it sets up itself (`SectorReader` and `BufReader`): as
long as the image goes on for 12288 bytes behind everything that is asked for, everything that is shown and
written is as over the bytes of the image themselves. -/
theorem C64_stack (fuel : Nat) (lines : List (Option (List Char))) (h : Host) :
    ∃ t : Prog (Res Unit × List TermLine × Host),
      (∀ d : Dev, d.Calm → t.run Dev.ask d = (((shellMain fuel lines h d).1, (shellMain fuel lines h d).2.1,
        (shellMain fuel lines h d).2.2.1), (shellMain fuel lines h d).2.2.2)) ∧
      ∀ (img : Bytes) (s : BufSector), img.length < I63 → ShellReader img s →
        (∀ a ∈ t.asks BufSector.ask s, a.2.1 + a.2.2.1 + 12288 ≤ img.length) →
        (t.run BufSector.ask s).1 = ((shellMain fuel lines h ⟨img, 0, []⟩).1,
          (shellMain fuel lines h ⟨img, 0, []⟩).2.1, (shellMain fuel lines h ⟨img, 0, []⟩).2.2.1) := by
  obtain ⟨t, ht⟩ := (shellMain_rep fuel lines h).prog4
  exact ⟨t, fun d hd => (ht d hd).symm, fun img s hu hs hn =>
    C65_stack hu ht ((C64_one_result fuel lines).2 h) s hs hn⟩

theorem Session.run_ok {img : Bytes} (hu : img.length < U64) (fuel : Nat) (c : Command) (s : Session) (d : Dev)
    (hd : d.Ok img) : (s.run fuel c d).2.2.2.Ok img := by
  obtain ⟨r, hr⟩ := (Session.run_rep fuel c s).one4 img hu
  exact ⟨(hr d hd.1 hd.2).2.1, (hr d hd.1 hd.2).2.2⟩

theorem Session.loop_ok {img : Bytes} (hu : img.length < U64) (fuel : Nat) (lines : List (Option (List Char)))
    (s : Session) (d : Dev) (hd : d.Ok img) : (Session.loop fuel lines s d).2.2.2.Ok img := by
  obtain ⟨r, hr⟩ := (Session.loop_rep fuel lines s).one4 img hu
  exact ⟨(hr d hd.1 hd.2).2.1, (hr d hd.1 hd.2).2.2⟩

/-! ### The current directory -/

/-- Every session has its `cd` arguments. -/
theorem CdArgs.total (lines : List (Option (List Char))) : ∃ args, CdArgs lines args := by
  induction lines with
  | nil => exact ⟨[], .nil⟩
  | cons l rest ih =>
    obtain ⟨args, h⟩ := ih
    by_cases hl : Ends l
    · exact ⟨[], .stop hl⟩
    · cases l with
      | none => exact absurd (.inl rfl) hl
      | some t =>
        have ht : Typed t (splitCommand t).1 (splitCommand t).2 := (C64_typed t _ _).1 rfl
        by_cases hw : (splitCommand t).1 = "cd".toList
        · rw [hw] at ht
          exact ⟨_, .cd hl ht h⟩
        · exact ⟨_, .other hl ht hw h⟩

theorem parse_cd {t a : List Char} (h : Typed t "cd".toList a) : Command.parse t = .cd a :=
  (C64_command _ _).2 ⟨_, _, h, .cd⟩

theorem parse_get {t a : List Char} (h : Typed t "get".toList a) : Command.parse t = .get a :=
  (C64_command _ _).2 ⟨_, _, h, .get⟩

theorem parse_not_cd {t w a : List Char} (h : Typed t w a) (hw : w ≠ "cd".toList) (b : List Char) :
    Command.parse t ≠ .cd b := by
  intro hp
  obtain ⟨w', a', h1, h2⟩ := (C64_command _ _).1 hp
  obtain ⟨rfl, rfl⟩ := h.unique h1
  cases h2
  exact hw rfl

theorem typed_get {t a : List Char} (h : Command.parse t = .get a) : Typed t "get".toList a := by
  obtain ⟨w, a', h1, h2⟩ := (C64_command _ _).1 h
  cases h2
  exact h1

/-- One `cd` line, on another device with the same contents. -/
theorem run_cd {img : Bytes} (hu : img.length < U64) (fuel : Nat) (a : List Char) (s s' : Session) (d d' : Dev)
    (hd : d.Ok img) (out : List TermLine) (hr : s.run fuel (.cd a) d = (.ok (), out, s', d')) (args : List (List Char))
    (e : Dev) (he : e.Ok img) :
    ∃ e', e'.Ok img ∧ Shell.cds fuel (a :: args) s.shell e = Shell.cds fuel args s'.shell e' := by
  have h1 := (Shell.cd_rep s.shell a fuel).one
  have hsame := h1.same (d1 := d) (d2 := e) (by rw [hd.1, he.1]) (by rw [hd.1]; exact hu) hd.2 he.2
  obtain ⟨_, q⟩ := h1 img hu
  obtain ⟨_, q1, q2⟩ := q e he.1 he.2
  unfold Session.run at hr
  dsimp only at hr
  generalize hx : s.shell.cd a fuel d = x at hr hsame
  generalize hy : s.shell.cd a fuel e = y at hsame q1 q2
  obtain ⟨x, dx⟩ := x
  obtain ⟨y, ey⟩ := y
  dsimp only at hsame
  subst hsame
  refine ⟨ey, ⟨q1, q2⟩, ?_⟩
  rw [Shell.cds, hy]
  cases x with
  | ok z => cases hr; rfl
  | err z => cases hr; rfl
  | panic z => cases hr
  | diverge => cases hr

/-- **C64**: the directory at the end of a session is the one that its `cd` commands alone lead to. No other
command, no error and nothing the device does to the reader's position changes it; so all that C57 and C59 say
about `cd` holds with any other commands in between. -/
theorem C64_only_cd {img : Bytes} (hu : img.length < U64) (fuel : Nat) {lines : List (Option (List Char))}
    {args : List (List Char)} (ha : CdArgs lines args) (s s' : Session) (d d' : Dev) (hd : d.Ok img)
    (out : List TermLine) (hr : Session.loop fuel lines s d = (.ok (), out, s', d')) (e : Dev) (he : e.Ok img) :
    ∃ e', e'.Ok img ∧ Shell.cds fuel args s.shell e = (.ok s'.shell, e') := by
  induction ha generalizing s d out e with
  | nil =>
    rw [Session.loop] at hr
    cases hr
    exact ⟨e, he, rfl⟩
  | stop hl =>
    rw [loop_end fuel hl] at hr
    injection hr with _ hr
    injection hr with _ hr
    injection hr with hr _
    subst hr
    exact ⟨e, he, rfl⟩
  | @cd t a rest args hl ht _ ih =>
    rcases loop_cases fuel hl rest s d with ⟨o, s1, d1, h1, h2⟩ | ⟨r, o, s1, d1, h1, _, _, h2⟩
    · rw [parse_cd ht] at h1
      obtain ⟨e1, k1, k2⟩ := run_cd hu fuel a s s1 d d1 hd o h1 args e he
      have hd1 : d1.Ok img := by
        have := Session.run_ok hu fuel (.cd a) s d hd
        rw [h1] at this
        exact this
      rw [h2] at hr
      rw [k2]
      generalize hg : Session.loop fuel rest s1 d1 = y at hr
      obtain ⟨r, o2, s2, d2⟩ := y
      cases hr
      exact ih s1 d1 hd1 o2 hg e1 k1
    · rw [h2] at hr
      cases hr
      exact absurd rfl h1
  | @other t w a rest args hl ht hw _ ih =>
    rcases loop_cases fuel hl rest s d with ⟨o, s1, d1, h1, h2⟩ | ⟨r, o, s1, d1, h1, _, _, h2⟩
    · have hs : s1.shell = s.shell := by
        have := (Session.run_keeps fuel (Command.parse t) s d).shell (parse_not_cd ht hw)
        rw [h1] at this
        exact this
      have hd1 : d1.Ok img := by
        have := Session.run_ok hu fuel (Command.parse t) s d hd
        rw [h1] at this
        exact this
      rw [h2] at hr
      rw [← hs]
      generalize hg : Session.loop fuel rest s1 d1 = y at hr
      obtain ⟨r, o2, s2, d2⟩ := y
      cases hr
      exact ih s1 d1 hd1 o2 hg e he
    · rw [h2] at hr
      cases hr
      exact absurd rfl h1

/-- The prompts of a session: the first one shows the path of the state it starts in. -/
theorem prompts_cons (p : List Char) (out : List TermLine) : prompts (.prompt p :: out) = p :: prompts out := rfl

/-- What the prompt before the line `k` shows. -/
def PromptAt (img : Bytes) (fuel : Nat) (lines : List (Option (List Char))) (sh : Shell) (k : Nat) (p : List Char) :
    Prop :=
  k ≤ lines.length ∧ (∀ l ∈ lines.take k, ¬ Ends l) ∧
    ∃ args sh', CdArgs (lines.take k) args ∧ p = sh'.path ∧
      ∀ e : Dev, e.Ok img → (Shell.cds fuel args sh e).1 = .ok sh'

theorem PromptAt.zero (img : Bytes) (fuel : Nat) (lines : List (Option (List Char))) (s : Session) (p : List Char)
    (out : List TermLine) (h : (prompts (.prompt s.shell.path :: out))[0]? = some p) :
    PromptAt img fuel lines s.shell 0 p := by
  rw [prompts_cons] at h
  injection h with h
  exact ⟨Nat.zero_le _, by simp, [], s.shell, .nil, h.symm, fun e _ => rfl⟩

/-- **C64**: the prompts, however the session ends: the prompt before the line `k` shows the path that the `cd`
commands among the first `k` lines lead to, and none of these lines ends the session. -/
theorem C64_prompts {img : Bytes} (hu : img.length < U64) (fuel : Nat) (lines : List (Option (List Char)))
    (s : Session) (d : Dev) (hd : d.Ok img) (k : Nat) (p : List Char)
    (hk : (prompts (Session.loop fuel lines s d).2.1)[k]? = some p) :
    k ≤ lines.length ∧ (∀ l ∈ lines.take k, ¬ Ends l) ∧
    ∃ args sh, CdArgs (lines.take k) args ∧ p = sh.path ∧
      ∀ e : Dev, e.Ok img → (Shell.cds fuel args s.shell e).1 = .ok sh := by
  show PromptAt img fuel lines s.shell k p
  induction lines generalizing s d k with
  | nil =>
    rw [Session.loop] at hk
    cases k with
    | zero => exact .zero img fuel _ s p _ hk
    | succ k => simp [prompts] at hk
  | cons l rest ih =>
    by_cases hl : Ends l
    · rw [loop_end fuel hl] at hk
      cases k with
      | zero => exact .zero img fuel _ s p _ hk
      | succ k => simp [prompts] at hk
    · cases l with
      | none => exact absurd (.inl rfl) hl
      | some t =>
        have hnp := (Session.run_keeps fuel (Command.parse t) s d).noPrompt
        rcases loop_cases fuel hl rest s d with ⟨o, s1, d1, h1, h2⟩ | ⟨r, o, s1, d1, _, _, h1, h2⟩
        · rw [h2] at hk
          rw [h1] at hnp
          cases k with
          | zero => exact .zero img fuel _ s p _ hk
          | succ k =>
            dsimp only at hk hnp
            rw [prompts_cons, prompts_append, hnp, List.nil_append, List.getElem?_cons_succ] at hk
            have hd1 : d1.Ok img := by
              have := Session.run_ok hu fuel (Command.parse t) s d hd
              rw [h1] at this
              exact this
            obtain ⟨g1, g2, args, sh, g3, g4, g5⟩ := ih s1 d1 hd1 k hk
            have hno : ∀ l ∈ (some t :: rest).take (k + 1), ¬ Ends l := by
              intro l hm
              rw [List.take_succ_cons] at hm
              rcases List.mem_cons.1 hm with rfl | hm
              · exact hl
              · exact g2 l hm
            have ht : Typed t (splitCommand t).1 (splitCommand t).2 := (C64_typed t _ _).1 rfl
            by_cases hw : (splitCommand t).1 = "cd".toList
            · rw [hw] at ht
              rw [parse_cd ht] at h1
              refine ⟨by simp; omega, hno, _ :: args, sh, .cd hl ht g3, g4, fun e he => ?_⟩
              obtain ⟨e2, k3, k4⟩ := run_cd hu fuel _ s s1 d d1 hd o h1 args e he
              rw [k4]
              exact g5 e2 k3
            · have hs : s1.shell = s.shell := by
                have := (Session.run_keeps fuel (Command.parse t) s d).shell (parse_not_cd ht hw)
                rw [h1] at this
                exact this
              refine ⟨by simp; omega, hno, args, sh, .other hl ht hw g3, g4, fun e he => ?_⟩
              rw [← hs]
              exact g5 e he
        · rw [h2] at hk
          rw [h1] at hnp
          cases k with
          | zero => exact .zero img fuel _ s p _ hk
          | succ k =>
            dsimp only at hk hnp
            rw [prompts_cons, hnp] at hk
            simp at hk

/-- **C64**: a session that ends without a panic has a prompt for every line up to the one that ends it, and no
more: no error and no command skips a line. -/
theorem C64_all_lines (fuel : Nat) (pre rest : List (Option (List Char))) (hp : ∀ l ∈ pre, ¬ Ends l)
    (hrest : ∀ l r, rest = l :: r → Ends l) (s : Session) (d : Dev)
    (hr : (Session.loop fuel (pre ++ rest) s d).1 = .ok ()) :
    (prompts (Session.loop fuel (pre ++ rest) s d).2.1).length = pre.length + 1 := by
  induction pre generalizing s d with
  | nil =>
    rw [List.nil_append]
    cases rest with
    | nil => rfl
    | cons l r =>
      rw [loop_end fuel (hrest l r rfl)]
      rfl
  | cons l pre ih =>
    have hl := hp l List.mem_cons_self
    cases l with
    | none => exact absurd (.inl rfl) hl
    | some t =>
      have hnp := (Session.run_keeps fuel (Command.parse t) s d).noPrompt
      rw [List.cons_append] at hr ⊢
      rcases loop_cases fuel hl (pre ++ rest) s d with ⟨o, s1, d1, h1, h2⟩ | ⟨r, o, s1, d1, h0, _, h1, h2⟩
      · rw [h2] at hr ⊢
        rw [h1] at hnp
        dsimp only at hr hnp ⊢
        rw [prompts_cons, prompts_append, hnp, List.nil_append, List.length_cons,
          ih (fun l hl => hp l (List.mem_cons_of_mem _ hl)) s1 d1 hr, List.length_cons]
      · rw [h2] at hr
        exact absurd hr h0

/-! ### The files on the host -/

/-- What `get` leaves behind, whatever the device does. -/
theorem get_file (s : Shell) (a : List Char) (ex : List Char → Bool) (fuel : Nat) (d : Dev) :
    (ex (outputName (splitStream a).1 (splitStream a).2) = true ∧
      s.get a ex fuel d = (.ok (.error (.outputExists (outputName (splitStream a).1 (splitStream a).2))), none, d)) ∨
    (ex (outputName (splitStream a).1 (splitStream a).2) = false ∧
      ∃ b, (s.get a ex fuel d).2.1 = some (outputName (splitStream a).1 (splitStream a).2, b) ∧
        ∀ ex', ex' (outputName (splitStream a).1 (splitStream a).2) = false →
          s.get a ex' fuel d = s.get a ex fuel d) := by
  simp only [Shell.get_eq]
  cases h : ex (outputName (splitStream a).1 (splitStream a).2) with
  | true => exact .inl ⟨rfl, rfl⟩
  | false =>
    right
    refine ⟨rfl, ?_⟩
    rw [if_neg (by simp)]
    have hb : ∀ ex' : List Char → Bool, ex' (outputName (splitStream a).1 (splitStream a).2) = false →
        ¬ ex' (outputName (splitStream a).1 (splitStream a).2) = true := fun ex' h => by rw [h]; simp
    generalize s.openData (splitStream a).1 (splitStream a).2 fuel d = x
    obtain ⟨x, d1⟩ := x
    rcases x with (m | v) | e | e | _
    · exact ⟨[], rfl, fun ex' h => if_neg (hb ex' h)⟩
    · dsimp only
      generalize copyLoop Val.readFn fuel (v, d1) (List.replicate 4096 0) [] = y
      obtain ⟨y, ⟨v', d2⟩, b⟩ := y
      cases y with
      | ok u => exact ⟨b, rfl, fun ex' h => if_neg (hb ex' h)⟩
      | err u => exact ⟨b, rfl, fun ex' h => if_neg (hb ex' h)⟩
      | panic u => exact ⟨b, rfl, fun ex' h => if_neg (hb ex' h)⟩
      | diverge => exact ⟨b, rfl, fun ex' h => if_neg (hb ex' h)⟩
    · exact ⟨[], rfl, fun ex' h => if_neg (hb ex' h)⟩
    · exact ⟨[], rfl, fun ex' h => if_neg (hb ex' h)⟩
    · exact ⟨[], rfl, fun ex' h => if_neg (hb ex' h)⟩

theorem run_get (fuel : Nat) (a : List Char) (s : Session) (d : Dev) :
    (s.run fuel (.get a) d).2.2.1.host = s.host.write (s.shell.get a s.host.blocked fuel d).2.1 := rfl

/-- The files that are new after one command. -/
theorem run_host (fuel : Nat) (c : Command) (s : Session) (d : Dev) :
    (s.run fuel c d).2.2.1.host = s.host ∨
    ∃ a b, c = .get a ∧ s.host.blocked (outputName (splitStream a).1 (splitStream a).2) = false ∧
      (s.run fuel c d).2.2.1.host =
        { s.host with files := s.host.files ++ [(outputName (splitStream a).1 (splitStream a).2, b)] } ∧
      (s.shell.get a s.host.blocked fuel d).2.1 = some (outputName (splitStream a).1 (splitStream a).2, b) := by
  by_cases hc : ∃ a, c = .get a
  · obtain ⟨a, rfl⟩ := hc
    rw [run_get]
    rcases get_file s.shell a s.host.blocked fuel d with ⟨_, h2⟩ | ⟨h1, b, h2, _⟩
    · left
      rw [h2]
      rfl
    · right
      refine ⟨a, b, rfl, h1, ?_, h2⟩
      rw [h2]
      rfl
  · left
    exact (Session.run_keeps fuel c s d).host fun a h => hc ⟨a, h⟩

theorem blocked_append (h : Host) (new : List (List Char × Bytes)) (name : List Char) :
    Host.blocked { h with files := h.files ++ new } name = (h.blocked name || new.any (·.1 == name)) := by
  unfold Host.blocked
  dsimp only
  rw [List.any_append, Bool.or_assoc]

/-- **C64**, the host, whatever the device does and however the session ends: all files of before are still there,
unchanged; every new one has a name under which there was none, comes from a `get` line that was executed, and has
the name that this line asks for; and no two of them have the same name. -/
theorem C64_host (fuel : Nat) (lines : List (Option (List Char))) (s : Session) (d : Dev) :
    ∃ new, (Session.loop fuel lines s d).2.2.1.host = { s.host with files := s.host.files ++ new } ∧
      (∀ f ∈ new, s.host.blocked f.1 = false) ∧ (new.map (·.1)).Nodup ∧
      ∀ f ∈ new, ∃ pre t post a, lines = pre ++ some t :: post ∧ (∀ l ∈ pre, ¬ Ends l) ∧
        Typed t "get".toList a ∧ f.1 = outputName (splitStream a).1 (splitStream a).2 := by
  have nothing : ∀ s : Session, s.host = { s.host with files := s.host.files ++ [] } := fun s => by simp
  induction lines generalizing s d with
  | nil => exact ⟨[], nothing s, by simp, by simp, by simp⟩
  | cons l rest ih =>
    by_cases hl : Ends l
    · rw [loop_end fuel hl]
      exact ⟨[], nothing s, by simp, by simp, by simp⟩
    · cases l with
      | none => exact absurd (.inl rfl) hl
      | some t =>
        have hone := run_host fuel (Command.parse t) s d
        rcases loop_cases fuel hl rest s d with ⟨o, s1, d1, h1, h2⟩ | ⟨r, o, s1, d1, h0, _, h1, h2⟩
        · rw [h2]
          rw [h1] at hone
          obtain ⟨new, g1, g2, g3, g4⟩ := ih s1 d1
          have g4' : ∀ f ∈ new, ∃ pre t' post a, some t :: rest = pre ++ some t' :: post ∧
              (∀ l ∈ pre, ¬ Ends l) ∧ Typed t' "get".toList a ∧
              f.1 = outputName (splitStream a).1 (splitStream a).2 := by
            intro f hf
            obtain ⟨pre, t', post, a, k1, k2, k3, k4⟩ := g4 f hf
            refine ⟨some t :: pre, t', post, a, by rw [k1]; rfl, ?_, k3, k4⟩
            intro l hm
            rcases List.mem_cons.1 hm with rfl | hm
            · exact hl
            · exact k2 l hm
          dsimp only at hone ⊢
          rcases hone with hone | ⟨a, b, ha, hb, hone, _⟩
          · rw [hone] at g1 g2
            exact ⟨new, g1, g2, g3, g4'⟩
          · rw [hone] at g1 g2
            refine ⟨(outputName (splitStream a).1 (splitStream a).2, b) :: new, ?_, ?_, ?_, ?_⟩
            · rw [g1]
              simp
            · intro f hf
              rcases List.mem_cons.1 hf with rfl | hf
              · exact hb
              · have := g2 f hf
                rw [blocked_append] at this
                exact (Bool.or_eq_false_iff.1 this).1
            · rw [List.map_cons, List.nodup_cons]
              refine ⟨fun hm => ?_, g3⟩
              obtain ⟨f, hf, he⟩ := List.mem_map.1 hm
              have := g2 f hf
              rw [blocked_append] at this
              have := (Bool.or_eq_false_iff.1 this).2
              simp [he] at this
            · intro f hf
              rcases List.mem_cons.1 hf with rfl | hf
              · exact ⟨[], t, rest, a, rfl, by simp, typed_get ha, rfl⟩
              · exact g4' f hf
        · rw [h2]
          rw [h1] at hone
          dsimp only at hone ⊢
          rcases hone with hone | ⟨a, b, ha, hb, hone, _⟩
          · rw [hone]
            exact ⟨[], nothing s, by simp, by simp, by simp⟩
          · rw [hone]
            refine ⟨[(outputName (splitStream a).1 (splitStream a).2, b)], rfl, ?_, by simp, ?_⟩
            · intro f hf
              rw [List.mem_singleton] at hf
              subst hf
              exact hb
            · intro f hf
              rw [List.mem_singleton] at hf
              subst hf
              exact ⟨[], t, rest, a, rfl, by simp, typed_get ha, rfl⟩

/-- **C64**, the contents: a new file has the contents that `get` alone writes, in the directory to which the `cd`
commands before it lead, on a device that has just been opened. So what C53 and C59 say about `get` holds for
every file of every session. -/
theorem C64_contents {img : Bytes} (hu : img.length < U64) (fuel : Nat) (lines : List (Option (List Char)))
    (s : Session) (d : Dev) (hd : d.Ok img) (f : List Char × Bytes)
    (hf : f ∈ (Session.loop fuel lines s d).2.2.1.host.files) :
    f ∈ s.host.files ∨
    ∃ pre t post a args sh, lines = pre ++ some t :: post ∧ (∀ l ∈ pre, ¬ Ends l) ∧ Typed t "get".toList a ∧
      CdArgs pre args ∧ ∀ e : Dev, e.Ok img → (Shell.cds fuel args s.shell e).1 = .ok sh ∧
        ∀ ex, ex f.1 = false → (sh.get a ex fuel e).2.1 = some f := by
  induction lines generalizing s d with
  | nil => exact .inl hf
  | cons l rest ih =>
    by_cases hl : Ends l
    · rw [loop_end fuel hl] at hf
      exact .inl hf
    · cases l with
      | none => exact absurd (.inl rfl) hl
      | some t =>
        have hone := run_host fuel (Command.parse t) s d
        have first : ∀ a b, Command.parse t = .get a →
            s.host.blocked (outputName (splitStream a).1 (splitStream a).2) = false →
            (s.shell.get a s.host.blocked fuel d).2.1 = some (outputName (splitStream a).1 (splitStream a).2, b) →
            f = (outputName (splitStream a).1 (splitStream a).2, b) →
            ∃ pre t' post a args sh, some t :: rest = pre ++ some t' :: post ∧ (∀ l ∈ pre, ¬ Ends l) ∧
              Typed t' "get".toList a ∧ CdArgs pre args ∧ ∀ e : Dev, e.Ok img →
                (Shell.cds fuel args s.shell e).1 = .ok sh ∧
                ∀ ex, ex f.1 = false → (sh.get a ex fuel e).2.1 = some f := by
          intro a b ha hb hg hfe
          refine ⟨[], t, rest, a, [], s.shell, rfl, by simp, typed_get ha, .nil, fun e he => ⟨rfl, fun ex hex => ?_⟩⟩
          have h1 := (Shell.get_rep s.shell a s.host.blocked fuel).one3
          have hsame := h1.same (d1 := d) (d2 := e) (by rw [hd.1, he.1]) (by rw [hd.1]; exact hu) hd.2 he.2
          injection hsame with _ hsame
          rw [hg] at hsame
          rcases get_file s.shell a s.host.blocked fuel e with ⟨k1, _⟩ | ⟨_, b', k2, k3⟩
          · rw [hb] at k1
            cases k1
          · rw [hfe] at hex ⊢
            rw [k3 ex hex]
            exact hsame.symm
        rcases loop_cases fuel hl rest s d with ⟨o, s1, d1, h1, h2⟩ | ⟨r, o, s1, d1, h0, _, h1, h2⟩
        · rw [h2] at hf
          rw [h1] at hone
          have hd1 : d1.Ok img := by
            have := Session.run_ok hu fuel (Command.parse t) s d hd
            rw [h1] at this
            exact this
          rcases ih s1 d1 hd1 hf with hin | ⟨pre, t', post, a, args, sh, k1, k2, k3, k4, k5⟩
          · dsimp only at hone
            rcases hone with hone | ⟨a, b, ha, hb, hone, hg⟩
            · rw [hone] at hin
              exact .inl hin
            · rw [hone] at hin
              rcases List.mem_append.1 hin with hin | hin
              · exact .inl hin
              · rw [List.mem_singleton] at hin
                exact .inr (first a b ha hb hg hin)
          · right
            have hno : ∀ l ∈ some t :: pre, ¬ Ends l := by
              intro l hm
              rcases List.mem_cons.1 hm with rfl | hm
              · exact hl
              · exact k2 l hm
            have ht : Typed t (splitCommand t).1 (splitCommand t).2 := (C64_typed t _ _).1 rfl
            by_cases hw : (splitCommand t).1 = "cd".toList
            · rw [hw] at ht
              rw [parse_cd ht] at h1
              refine ⟨some t :: pre, t', post, a, _ :: args, sh, by rw [k1]; rfl, hno, k3, .cd hl ht k4, ?_⟩
              intro e he
              refine ⟨?_, (k5 e he).2⟩
              obtain ⟨e2, k6, k7⟩ := run_cd hu fuel _ s s1 d d1 hd o h1 args e he
              rw [k7]
              exact (k5 e2 k6).1
            · have hs : s1.shell = s.shell := by
                have := (Session.run_keeps fuel (Command.parse t) s d).shell (parse_not_cd ht hw)
                rw [h1] at this
                exact this
              rw [hs] at k5
              exact ⟨some t :: pre, t', post, a, args, sh, by rw [k1]; rfl, hno, k3, .other hl ht hw k4, k5⟩
        · rw [h2] at hf
          rw [h1] at hone
          dsimp only at hone hf
          rcases hone with hone | ⟨a, b, ha, hb, hone, hg⟩
          · rw [hone] at hf
            exact .inl hf
          · rw [hone] at hf
            rcases List.mem_append.1 hf with hin | hin
            · exact .inl hin
            · rw [List.mem_singleton] at hin
              exact .inr (first a b ha hb hg hin)

/-- **C64**, a second `get` to the same output file never does anything, even if the first one failed (then an
empty or incomplete file was left behind, C59): it reports that the file cannot be created, in every later state
of the session, whatever the device does. -/
theorem C64_second_get (fuel : Nat) (a a' : List Char)
    (hn : outputName (splitStream a).1 (splitStream a).2 = outputName (splitStream a').1 (splitStream a').2)
    (s : Session) (d : Dev) (lines : List (Option (List Char))) (d1 d2 : Dev) :
    let s1 := (s.run fuel (.get a) d).2.2.1
    let s2 := (Session.loop fuel lines s1 d1).2.2.1
    s2.run fuel (.get a') d2 =
      (.ok (), [.error (.shell (.outputExists (outputName (splitStream a').1 (splitStream a').2)))], s2, d2) := by
  intro s1 s2
  have hb1 : s1.host.blocked (outputName (splitStream a).1 (splitStream a).2) = true := by
    show (s.run fuel (.get a) d).2.2.1.host.blocked _ = true
    rw [run_get]
    rcases get_file s.shell a s.host.blocked fuel d with ⟨h1, h2⟩ | ⟨_, b, h2, _⟩
    · rw [h2]
      exact h1
    · rw [h2]
      show Host.blocked { s.host with files := s.host.files ++ [_] } _ = true
      rw [blocked_append]
      simp
  have hb2 : s2.host.blocked (outputName (splitStream a').1 (splitStream a').2) = true := by
    obtain ⟨new, h, _⟩ := C64_host fuel lines s1 d1
    show (Session.loop fuel lines s1 d1).2.2.1.host.blocked _ = true
    rw [h, blocked_append, ← hn, hb1]
    rfl
  rcases get_file s2.shell a' s2.host.blocked fuel d2 with ⟨h1, h2⟩ | ⟨h1, _⟩
  · exact run_get_error h2
  · rw [hb2] at h1
    cases h1

/-- **C64**, what a `get` line shows, whatever the device does. Either it shows no size: then at most one line, and the
output file is created, empty, unless the host refuses its name. Or it shows the size first, with the name of the output file, and after
that at most one error; then the output file is there. Nothing is copied without this line. -/
theorem C64_announced (fuel : Nat) (a : List Char) (s : Session) (d : Dev) :
    ((∀ l ∈ (s.run fuel (.get a) d).2.1, ∀ n f, l ≠ .saving n f) ∧ (s.run fuel (.get a) d).2.1.length ≤ 1 ∧
      ((s.host.blocked (outputName (splitStream a).1 (splitStream a).2) = true ∧ (s.run fuel (.get a) d).2.2.1 = s) ∨
        (s.host.blocked (outputName (splitStream a).1 (splitStream a).2) = false ∧
          (s.run fuel (.get a) d).2.2.1 = { s with host := { s.host with
            files := s.host.files ++ [(outputName (splitStream a).1 (splitStream a).2, [])] } }))) ∨
    ∃ n after b, (s.run fuel (.get a) d).2.1 =
        .saving n (outputName (splitStream a).1 (splitStream a).2) :: after ∧
      (after = [] ∨ ∃ e, after = [.error (.lib e)]) ∧
      s.host.blocked (outputName (splitStream a).1 (splitStream a).2) = false ∧
      (s.run fuel (.get a) d).2.2.1 = { s with host := { s.host with
        files := s.host.files ++ [(outputName (splitStream a).1 (splitStream a).2, b)] } } := by
  have shown : ∀ m : ShellMsg, ∀ n f, m.shown ≠ .saving n f := fun m n f h => by cases m <;> cases h
  unfold Session.run Shell.getShown
  dsimp only
  cases hb : s.host.blocked (outputName (splitStream a).1 (splitStream a).2) with
  | true =>
    left
    rw [if_pos rfl]
    refine ⟨fun l hl n f => ?_, by simp [shownResult], .inl ⟨rfl, rfl⟩⟩
    have : l = (ShellMsg.outputExists (outputName (splitStream a).1 (splitStream a).2)).shown := by
      simpa [shownResult] using hl
    rw [this]
    exact shown _ n f
  | false =>
    rw [if_neg (by simp)]
    generalize s.shell.openData (splitStream a).1 (splitStream a).2 fuel d = x
    obtain ⟨(m | v) | e | e | _, d1⟩ := x
    · left
      refine ⟨fun l hl n f => ?_, by simp [shownResult], .inr ⟨rfl, rfl⟩⟩
      have : l = m.shown := by simpa [shownResult] using hl
      rw [this]
      exact shown m n f
    · right
      dsimp only
      generalize copyLoop Val.readFn fuel (v, d1) (List.replicate 4096 0) [] = y
      obtain ⟨_ | e | _ | _, ⟨v', d2⟩, b⟩ := y
      · exact ⟨v.len, [], b, rfl, .inl rfl, rfl, rfl⟩
      · exact ⟨v.len, [.error (.lib e)], b, rfl, .inr ⟨e, rfl⟩, rfl, rfl⟩
      · exact ⟨v.len, [], b, rfl, .inl rfl, rfl, rfl⟩
      · exact ⟨v.len, [], b, rfl, .inl rfl, rfl, rfl⟩
    · left
      refine ⟨fun l hl n f => ?_, by simp [shownResult], .inr ⟨rfl, rfl⟩⟩
      have : l = .error (.lib e) := by simpa [shownResult] using hl
      rw [this]
      intro h
      cases h
    · exact .inl ⟨fun l hl => (by cases hl), by simp [shownResult], .inr ⟨rfl, rfl⟩⟩
    · exact .inl ⟨fun l hl => (by cases hl), by simp [shownResult], .inr ⟨rfl, rfl⟩⟩

end NT
