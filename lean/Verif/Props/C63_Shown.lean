import Verif.Props.C63_AttrTable
import Verif.Props.C62_Shown

/-! C63: the table is determined, hides nothing, and locates the contents of non-resident attributes. -/

namespace NT

open Spec

variable {V : View}

theorem Printed.unique {w : Bool} {file : NFile} {off record : Nat} {nested : Bool} {l l' : List AttrLine}
    {o o' : Option Err} (h : Printed w file off record nested l o) (h' : Printed w file off record nested l' o') :
    l = l' ∧ o = o' := by
  have known : ∀ {t : AttrType}, field file.recordData off 4 = t.code → field file.recordData off 4 ∈ typeCodes :=
    fun h => (typeCodes_iff _).2 ⟨_, h⟩
  have same : ∀ {t t' : AttrType} {nm nm' : List Nat}, field file.recordData off 4 = t.code →
      field file.recordData off 4 = t'.code → NameIs file.recordData off nm → NameIs file.recordData off nm' →
      lineAt file off record nested t nm = lineAt file off record nested t' nm' := by
    intro t t' nm nm' h1 h2 h3 h4
    rw [AttrType.code_inj (h1.symm.trans h2), nameIs_unique h3 h4]
  cases h with
  | badType a =>
    cases h' with
    | badType => exact ⟨rfl, rfl⟩
    | badName _ b => exact absurd b a
    | short _ _ _ b => exact absurd (known b) a
    | resident _ _ _ b => exact absurd (known b) a
    | residentBad _ _ _ b => exact absurd (known b) a
    | runs _ _ _ _ _ b => exact absurd (known b) a
    | runsBad _ _ _ b => exact absurd (known b) a
  | badName x a1 a2 =>
    cases h' with
    | badType b => exact absurd a1 b
    | badName y b1 b2 =>
      obtain ⟨_, _, _, rfl⟩ := a2
      obtain ⟨_, _, _, rfl⟩ := b2
      exact ⟨rfl, rfl⟩
    | short _ _ _ _ b => exact absurd b (a2.not_nameIs _)
    | resident _ _ _ _ b => exact absurd b (a2.not_nameIs _)
    | residentBad _ _ _ _ b => exact absurd b (a2.not_nameIs _)
    | runs _ _ _ _ _ _ b => exact absurd b (a2.not_nameIs _)
    | runsBad _ _ _ _ b => exact absurd b (a2.not_nameIs _)
  | short t nm a1 a2 a3 =>
    cases h' with
    | badType b => exact absurd (known a2) b
    | badName y b1 b2 => exact absurd a3 (b2.not_nameIs _)
    | short _ _ b1 b2 b3 => exact ⟨by rw [same a2 b2 a3 b3], rfl⟩
    | resident _ _ b => rw [a1] at b; cases b
    | residentBad _ _ b => rw [a1] at b; cases b
    | runs _ _ _ _ b => rw [a1] at b; cases b
    | runsBad _ _ b => rw [a1] at b; cases b
  | resident t nm a1 a2 a3 a4 a5 =>
    cases h' with
    | badType b => exact absurd (known a2) b
    | badName y b1 b2 => exact absurd a3 (b2.not_nameIs _)
    | short _ _ b => rw [a1] at b; cases b
    | resident _ _ _ b2 b3 => exact ⟨by rw [same a2 b2 a3 b3], rfl⟩
    | residentBad _ _ _ _ _ _ b => omega
    | runs _ _ _ _ _ _ _ b => exact absurd a4 b
    | runsBad _ _ _ _ _ b => exact absurd a4 b
  | residentBad t nm a1 a2 a3 a4 a5 =>
    cases h' with
    | badType b => exact absurd (known a2) b
    | badName y b1 b2 => exact absurd a3 (b2.not_nameIs _)
    | short _ _ b => rw [a1] at b; cases b
    | resident _ _ _ _ _ _ b => omega
    | residentBad _ _ _ b2 b3 => exact ⟨by rw [same a2 b2 a3 b3], rfl⟩
    | runs _ _ _ _ _ _ _ b => exact absurd a4 b
    | runsBad _ _ _ _ _ b => exact absurd a4 b
  | runs t nm xs o a1 a2 a3 a4 a5 a6 =>
    cases h' with
    | badType b => exact absurd (known a2) b
    | badName y b1 b2 => exact absurd a3 (b2.not_nameIs _)
    | short _ _ b => rw [a1] at b; cases b
    | resident _ _ _ _ _ b => exact absurd b a4
    | residentBad _ _ _ _ _ b => exact absurd b a4
    | runs _ _ xs' o' _ b2 b3 _ _ b6 =>
      obtain ⟨rfl, rfl⟩ := a6.unique b6
      exact ⟨by rw [same a2 b2 a3 b3], rfl⟩
    | runsBad _ _ _ _ _ _ b => omega
  | runsBad t nm a1 a2 a3 a4 a5 =>
    cases h' with
    | badType b => exact absurd (known a2) b
    | badName y b1 b2 => exact absurd a3 (b2.not_nameIs _)
    | short _ _ b => rw [a1] at b; cases b
    | resident _ _ _ _ _ b => exact absurd b a4
    | residentBad _ _ _ _ _ b => exact absurd b a4
    | runs _ _ _ _ _ _ _ _ b => omega
    | runsBad _ _ _ b2 b3 => exact ⟨by rw [same a2 b2 a3 b3], rfl⟩

theorem Entries.unique {w : Bool} {es : List LEntry} (hes : ∀ e ∈ es, Follows w V e) {l l' : List AttrLine}
    {o o' : Option Err} (h : Entries w V es l o) (h' : Entries w V es l' o') : l = l' ∧ o = o' := by
  induction h generalizing l' o' with
  | nil => cases h'; exact ⟨rfl, rfl⟩
  | own e es l o a _ ih =>
    cases h' with
    | own _ _ _ _ b b' => exact ih (fun e he => hes e (by simp [he])) b'
    | fails _ _ _ b => exact absurd a b
    | bad _ _ _ _ _ _ b => exact absurd a b
    | shown _ _ _ _ _ _ _ b => exact absurd a b
  | fails e es x a a2 =>
    cases h' with
    | own _ _ _ _ b => exact absurd b a
    | fails _ _ y b b2 => rw [a2.unique b2]; exact ⟨rfl, rfl⟩
    | bad _ _ _ _ _ _ _ b => exact absurd a2 b.not_fails
    | shown _ _ _ _ _ _ _ _ b => exact absurd a2 b.not_fails
  | bad e es file off l x a a2 a3 =>
    have ht : ∃ t : AttrType, e.ty = t.code := (hes e (by simp)).elim (fun h => absurd h a) (fun h => h.1)
    obtain ⟨t, ht⟩ := ht
    cases h' with
    | own _ _ _ _ b => exact absurd b a
    | fails _ _ y b b2 => exact absurd b2 a2.not_fails
    | bad _ _ file' off' _ y b b2 b3 =>
      obtain ⟨rfl, rfl⟩ := a2.unique ht b2
      exact a3.unique b3
    | shown _ _ file' off' _ _ _ b b2 b3 =>
      obtain ⟨rfl, rfl⟩ := a2.unique ht b2
      exact absurd (a3.unique b3).2 (by simp)
  | shown e es file off l l2 o a a2 a3 _ ih =>
    have ht : ∃ t : AttrType, e.ty = t.code := (hes e (by simp)).elim (fun h => absurd h a) (fun h => h.1)
    obtain ⟨t, ht⟩ := ht
    cases h' with
    | own _ _ _ _ b => exact absurd b a
    | fails _ _ y b b2 => exact absurd b2 a2.not_fails
    | bad _ _ file' off' _ y b b2 b3 =>
      obtain ⟨rfl, rfl⟩ := a2.unique ht b2
      exact absurd (a3.unique b3).2 (by simp)
    | shown _ _ file' off' _ _ _ b b2 b3 b4 =>
      obtain ⟨rfl, rfl⟩ := a2.unique ht b2
      obtain ⟨rfl, _⟩ := a3.unique b3
      obtain ⟨rfl, rfl⟩ := ih (fun e he => hes e (by simp [he])) b4
      exact ⟨rfl, rfl⟩

/-- An attribute list has one sequence of entries. -/
theorem ListStored.unique {ntfs : Ntfs} {img : Bytes} {f : NFile} (hf : f.ntfs = ntfs) {off len len' : Nat}
    {es es' : List LEntry} (ha : AttrAt f.recordData off len) (ha' : AttrAt f.recordData off len')
    (h : ListStored ntfs img f off len es) (h' : ListStored ntfs img f off len' es') : es = es' := by
  obtain ⟨_, al, b, g1, g2, g3⟩ := ListStored.opens hf ha h
  obtain ⟨_, al', b', k1, k2, k3⟩ := ListStored.opens hf ha' h'
  have e1 := g3 ⟨img, 0, []⟩
  rw [k3] at e1
  injection e1 with e1
  injection e1 with e1
  subst e1
  obtain ⟨got, p1, p2⟩ := AttrList.calls_encoded img es b g2 es'.length _ g1 ⟨img, 0, []⟩ (by simp [Dev.NoFail]) rfl
  obtain ⟨got', q1, q2⟩ := AttrList.calls_encoded img es' b' k2 es.length _ k1 ⟨img, 0, []⟩ (by simp [Dev.NoFail]) rfl
  rw [Nat.add_comm, p1] at q1
  have drops : ∀ (xs : List ListEntry) (k : Nat), List.filterMap (fun r : Res (Option ListEntry) =>
      match r with | .ok (some e) => some e | _ => none)
      (xs.map (fun e => Res.ok (some e)) ++ List.replicate k (Res.ok none)) = xs := by
    intro xs k
    induction xs with
    | nil => induction k with
      | zero => rfl
      | succ k ih => rw [List.replicate_succ]; exact ih
    | cons x xs ih => exact congrArg (x :: ·) ih
  have hx : got = got' := by rw [← drops got es'.length, q1, drops]
  rw [← p2, ← q2, hx]

theorem Spec.ListLost.unique {file : NFile} {off : Nat} {x y : Err} (h : ListLost file off x)
    (h' : ListLost file off y) : x = y := by
  obtain ⟨_, _, _, ⟨a, rfl⟩ | ⟨a, _, rfl⟩⟩ := h <;> obtain ⟨_, _, _, ⟨b, rfl⟩ | ⟨b, _, rfl⟩⟩ := h' <;>
    first | rfl | omega

theorem Spec.ListLost.not_stored {file : NFile} {off len : Nat} {x : Err} (h : ListLost file off x)
    (ha : AttrAt file.recordData off len) {ntfs : Ntfs} {img : Bytes} {es : List LEntry} :
    ¬ ListStored ntfs img file off len es := by
  obtain ⟨_, h2, _, h4⟩ := h
  have := ha.length
  rintro (⟨s, n, _, _, _, g1, g2, g3, _⟩ | ⟨_, _, _, _, g, _⟩)
  · rcases h4 with ⟨a, _⟩ | ⟨_, a, _⟩ <;> omega
  · exact g h2

theorem Table.unique {w : Bool} {fin : Nat} {offs : List Nat} (hbn : V.base.ntfs = V.ntfs)
    (hall : ∀ off ∈ offs, field V.base.recordData off 4 = 0x20 →
      (∃ x, ListLost V.base off x) ∨ ∃ len es, AttrAt V.base.recordData off len ∧ ListStored V.ntfs V.img V.base off len es ∧ ∀ e ∈ es, Follows w V e)
    {l l' : List AttrLine} {q q' : Res Unit} (h : Table w V fin offs l q) (h' : Table w V fin offs l' q') :
    l = l' ∧ q = q' := by
  have code : ∀ {off len : Nat} {es : List LEntry}, ListStored V.ntfs V.img V.base off len es →
      field V.base.recordData off 4 = 0x20 := by
    intro off len es h
    cases h with
    | resident _ _ h1 => exact h1
    | nonResident _ _ _ h1 => exact h1
  have follows : ∀ {off : Nat} {offs : List Nat}, (∀ o ∈ off :: offs, field V.base.recordData o 4 = 0x20 →
      (∃ x, ListLost V.base o x) ∨ ∃ len es, AttrAt V.base.recordData o len ∧ ListStored V.ntfs V.img V.base o len es ∧ ∀ e ∈ es, Follows w V e) →
      ∀ {len : Nat} {es : List LEntry}, AttrAt V.base.recordData off len → ListStored V.ntfs V.img V.base off len es →
      ∀ e ∈ es, Follows w V e := by
    intro off offs hall len es ha hst
    rcases hall off (by simp) (code hst) with ⟨x, k⟩ | ⟨len', es', k1, k2, k3⟩
    · exact absurd hst (k.not_stored ha)
    rw [ListStored.unique hbn ha k1 hst k2]
    exact k3
  induction h generalizing l' q' with
  | done a =>
    cases h' with
    | done => exact ⟨rfl, rfl⟩
    | broken b => exact absurd a b
  | broken a =>
    cases h' with
    | done b => exact absurd b a
    | broken => exact ⟨rfl, rfl⟩
  | bad off offs l x a =>
    cases h' with
    | bad _ _ _ y b =>
      obtain ⟨rfl, g⟩ := a.unique b
      injection g with g
      rw [g]; exact ⟨rfl, rfl⟩
    | shown _ _ _ _ _ _ b => exact absurd (a.unique b).2 (by simp)
    | listLost _ _ _ _ _ b => exact absurd (a.unique b).2 (by simp)
    | listBad _ _ _ _ _ _ _ _ _ b => exact absurd (a.unique b).2 (by simp)
    | list _ _ _ _ _ _ _ _ _ _ b => exact absurd (a.unique b).2 (by simp)
  | shown off offs l l2 q a1 a2 _ ih =>
    cases h' with
    | bad _ _ _ y b => exact absurd (a2.unique b).2 (by simp)
    | shown _ _ _ _ _ b1 b2 b3 =>
      obtain ⟨rfl, _⟩ := a2.unique b2
      obtain ⟨rfl, rfl⟩ := ih (fun o ho => hall o (by simp [ho])) b3
      exact ⟨rfl, rfl⟩
    | listLost _ _ _ _ b => exact absurd b.1 a1
    | listBad _ _ _ _ _ _ _ _ b => exact absurd (code b) a1
    | list _ _ _ _ _ _ _ _ _ b => exact absurd (code b) a1
  | listLost off offs l x a1 a2 =>
    cases h' with
    | bad _ _ _ y b => exact absurd (a2.unique b).2 (by simp)
    | shown _ _ _ _ _ b1 => exact absurd a1.1 b1
    | listLost _ _ _ y b1 b2 =>
      obtain ⟨rfl, _⟩ := a2.unique b2
      rw [a1.unique b1]; exact ⟨rfl, rfl⟩
    | listBad _ _ _ _ _ _ _ b1 b2 => exact absurd b2 (a1.not_stored b1)
    | list _ _ _ _ _ _ _ _ b1 b2 => exact absurd b2 (a1.not_stored b1)
  | listBad off len offs es l l1 x a1 a2 a3 a4 =>
    cases h' with
    | listLost _ _ _ _ b => exact absurd a2 (b.not_stored a1)
    | bad _ _ _ y b => exact absurd (a3.unique b).2 (by simp)
    | shown _ _ _ _ _ b1 => exact absurd (code a2) b1
    | listBad _ len' _ es' _ _ y b1 b2 b3 b4 =>
      obtain ⟨rfl, _⟩ := a3.unique b3
      obtain rfl := ListStored.unique hbn a1 b1 a2 b2
      obtain ⟨rfl, g⟩ := a4.unique (follows hall a1 a2) b4
      injection g with g
      rw [g]; exact ⟨rfl, rfl⟩
    | list _ len' _ es' _ _ _ _ b1 b2 b3 b4 =>
      obtain rfl := ListStored.unique hbn a1 b1 a2 b2
      exact absurd (a4.unique (follows hall a1 a2) b4).2 (by simp)
  | list off len offs es l l1 l2 q a1 a2 a3 a4 _ ih =>
    cases h' with
    | listLost _ _ _ _ b => exact absurd a2 (b.not_stored a1)
    | bad _ _ _ y b => exact absurd (a3.unique b).2 (by simp)
    | shown _ _ _ _ _ b1 => exact absurd (code a2) b1
    | listBad _ len' _ es' _ _ y b1 b2 b3 b4 =>
      obtain rfl := ListStored.unique hbn a1 b1 a2 b2
      exact absurd (a4.unique (follows hall a1 a2) b4).2 (by simp)
    | list _ len' _ es' _ _ _ _ b1 b2 b3 b4 b5 =>
      obtain ⟨rfl, _⟩ := a3.unique b3
      obtain rfl := ListStored.unique hbn a1 b1 a2 b2
      obtain ⟨rfl, _⟩ := a4.unique (follows hall a1 a2) b4
      obtain ⟨rfl, rfl⟩ := ih (fun o ho => hall o (by simp [ho])) b5
      exact ⟨rfl, rfl⟩

/-- **C63**: what is to be printed is determined by the file record and the records that its attribute list
leads to. -/
theorem C63_determined {w : Bool} {fin : Nat} {offs : List Nat} (ht : Tabular w V offs fin) {l l' : List AttrLine}
    {q q' : Res Unit} (h : Table w V fin offs l q) (h' : Table w V fin offs l' q') : l = l' ∧ q = q' :=
  h.unique ht.volume ht.lists h'

/-- **C63**: an argument that names no file is reported as such, and nothing is shown. -/
theorem C63_no_file (s : Shell) (w : Bool) {D : View} {rest : List NFile} (hs : s.stack = D.base :: rest)
    {steps : List Step} {t : Node} {tab : List Nat} (hD : DirOf D steps t tab)
    (hn : s.ntfs.upcaseTable = some tab) (ht : TableOk tab) {arg : List Char} {m : ShellMsg}
    (h : NoFile tab t arg m)
    (fuel : Nat) (hf1 : steps.length < fuel) (hf2 : t.entries + t.nodes ≤ fuel) (d : Dev) (hd : d.Ok D.img) :
    ∃ d', s.attr w arg fuel d = (.ok (.error m), [], d') ∧ d'.Ok D.img := by
  obtain ⟨d', e, hd'⟩ := h.parse s hs hD hn ht fuel hf1 hf2 d hd
  exact ⟨d', by unfold Shell.attr; rw [e], hd'⟩

/-- **C63**: `attr` in the shell, for an argument that names the file `F`. -/
theorem C63_command (s : Shell) (w : Bool) {F : View} (hn : s.ntfs = F.ntfs) (arg : List Char) {offs : List Nat}
    {fin : Nat} (ht : Tabular w F offs fin) {l : List AttrLine} {q : Res Unit} (hl : Table w F fin offs l q) :
    ∃ n0, ∀ fuel ≥ n0, ∀ d d1 : Dev, d1.Ok F.img → s.parseFileArg arg fuel d = (.ok (.ok F.base), d1) →
      ∃ d', d'.Ok F.img ∧
        (q = .ok () → s.attr w arg fuel d = (.ok (.ok ()), l, d')) ∧
        (∀ x, q = .err x → s.attr w arg fuel d = (.err x, l, d')) := by
  obtain ⟨l', q', h1, n0, h2⟩ := C63_attr w offs fin ht
  obtain ⟨rfl, rfl⟩ := C63_determined ht hl h1
  refine ⟨n0, fun fuel hf d d1 hd1 hparse => ?_⟩
  obtain ⟨d', k1, k2⟩ := h2 fuel hf d1 hd1
  refine ⟨d', k2, ?_, ?_⟩
  · rintro rfl
    unfold Shell.attr
    rw [hparse]
    dsimp only
    rw [hn, k1]
  · rintro x rfl
    unfold Shell.attr
    rw [hparse]
    dsimp only
    rw [hn, k1]

theorem Printed.line {w : Bool} {file : NFile} {off record : Nat} {nested : Bool} {l : List AttrLine}
    (h : Printed w file off record nested l none) :
    ∃ t nm l', field file.recordData off 4 = t.code ∧ NameIs file.recordData off nm ∧
      l = lineAt file off record nested t nm :: l' := by
  cases h with
  | short t nm _ h1 h2 => exact ⟨t, nm, _, h1, h2, rfl⟩
  | resident t nm _ h1 h2 => exact ⟨t, nm, _, h1, h2, rfl⟩
  | runs t nm _ _ _ h1 h2 => exact ⟨t, nm, _, h1, h2, rfl⟩

theorem Entries.all {w : Bool} {es : List LEntry} {l : List AttrLine} (h : Entries w V es l none) :
    ∀ e ∈ es, e.record ≠ V.base.number → ∃ file off t nm, Loads V.ntfs V.img V.mftEs e file off ∧
      field file.recordData off 4 = t.code ∧ NameIs file.recordData off nm ∧
      lineAt file off e.record true t nm ∈ l := by
  generalize ho : (none : Option Err) = o at h
  induction h with
  | nil => simp
  | own e es l o a _ ih =>
    intro e' he' hn
    rcases List.mem_cons.1 he' with rfl | he'
    · exact absurd a hn
    · exact ih ho e' he' hn
  | fails => cases ho
  | bad => cases ho
  | shown e es file off l l2 o a a2 a3 _ ih =>
    intro e' he' hn
    rcases List.mem_cons.1 he' with rfl | he'
    · obtain ⟨t, nm, l', h1, h2, rfl⟩ := a3.line
      exact ⟨file, off, t, nm, a2, h1, h2, by simp⟩
    · obtain ⟨f, o, t, nm, h1, h2, h3, h4⟩ := ih ho e' he' hn
      exact ⟨f, o, t, nm, h1, h2, h3, List.mem_append_right _ h4⟩

/-- **C63**: if `attr` ends without an error, it has printed a line for every attribute of the file record, and
for every entry of its attribute lists that leads to another record. -/
theorem C63_nothing_hidden {w : Bool} {fin : Nat} {offs : List Nat} (ht : Tabular w V offs fin) {l : List AttrLine}
    (h : Table w V fin offs l (.ok ())) :
    EndsAt V.base.recordData fin ∧
    (∀ off ∈ offs, ∃ t nm, field V.base.recordData off 4 = t.code ∧ NameIs V.base.recordData off nm ∧
      lineAt V.base off V.base.number false t nm ∈ l) ∧
    (∀ off ∈ offs, ∀ len es, AttrAt V.base.recordData off len → ListStored V.ntfs V.img V.base off len es →
      ∀ e ∈ es, e.record ≠ V.base.number → ∃ file o t nm, Loads V.ntfs V.img V.mftEs e file o ∧
        field file.recordData o 4 = t.code ∧ NameIs file.recordData o nm ∧
        lineAt file o e.record true t nm ∈ l) := by
  have hbn := ht.volume
  clear ht
  generalize hq : (Res.ok () : Res Unit) = q at h
  induction h with
  | done a => exact ⟨a, by simp, by simp⟩
  | broken => cases hq
  | bad => cases hq
  | listLost => cases hq
  | listBad => cases hq
  | shown off offs l l2 q a1 a2 _ ih =>
    obtain ⟨h1, h2, h3⟩ := ih hq
    refine ⟨h1, ?_, ?_⟩
    · intro o ho
      rcases List.mem_cons.1 ho with rfl | ho
      · obtain ⟨t, nm, l', k1, k2, rfl⟩ := a2.line
        exact ⟨t, nm, k1, k2, by simp⟩
      · obtain ⟨t, nm, k1, k2, k3⟩ := h2 o ho
        exact ⟨t, nm, k1, k2, List.mem_append_right _ k3⟩
    · intro o ho len es hat hst e he hn
      rcases List.mem_cons.1 ho with rfl | ho
      · exfalso
        cases hst with
        | resident _ _ h => exact a1 h
        | nonResident _ _ _ h => exact a1 h
      · obtain ⟨f, o', t, nm, k1, k2, k3, k4⟩ := h3 o ho len es hat hst e he hn
        exact ⟨f, o', t, nm, k1, k2, k3, List.mem_append_right _ k4⟩
  | list off len offs es l l1 l2 q a1 a2 a3 a4 _ ih =>
    obtain ⟨h1, h2, h3⟩ := ih hq
    refine ⟨h1, ?_, ?_⟩
    · intro o ho
      rcases List.mem_cons.1 ho with rfl | ho
      · obtain ⟨t, nm, l', k1, k2, rfl⟩ := a3.line
        exact ⟨t, nm, k1, k2, by simp⟩
      · obtain ⟨t, nm, k1, k2, k3⟩ := h2 o ho
        exact ⟨t, nm, k1, k2, by simp [k3]⟩
    · intro o ho len' es' hat hst e he hn
      rcases List.mem_cons.1 ho with rfl | ho
      · rw [← ListStored.unique hbn a1 hat a2 hst] at he
        obtain ⟨f, o', t, nm, k1, k2, k3, k4⟩ := a4.all e he hn
        exact ⟨f, o', t, nm, k1, k2, k3, by simp [k4]⟩
      · obtain ⟨f, o', t, nm, k1, k2, k3, k4⟩ := h3 o ho len' es' hat hst e he hn
        exact ⟨f, o', t, nm, k1, k2, k3, by simp [k4]⟩

/-- The bytes of the image that a line of `attr_runs` points to. -/
def pointsTo (img : Bytes) : AttrLine → Bytes
  | .run _ _ (some p) n => (img.drop p).take n
  | .run _ _ none n => List.replicate n 0
  | .attribute .. => []

theorem runLines_points (img : Bytes) (cs : Nat) (nested : Bool) (es : List Extent) (i : Nat) :
    (runLines nested i (es.map (runOf cs))).flatMap (pointsTo img) = content cs img es := by
  induction es generalizing i with
  | nil => rfl
  | cons e es ih =>
    rw [List.map_cons, runLines, List.flatMap_cons, ih]
    show _ = Extent.bytes cs img e ++ content cs img es
    congr 1
    rcases e with ⟨c, _ | p⟩ <;> rfl

/-- The lines of `attr_runs` for the extents `es`, numbered from `i`. -/
def Spec.extentLines (nested : Bool) (cs : Nat) : Nat → List Extent → List AttrLine
  | _, [] => []
  | i, e :: es => .run nested i (e.lcn.map (· * cs)) (e.count * cs) :: extentLines nested cs (i + 1) es

theorem runLines_extents (nested : Bool) (cs i : Nat) (es : List Extent) :
    runLines nested i (es.map (runOf cs)) = extentLines nested cs i es := by
  induction es generalizing i with
  | nil => rfl
  | cons e es ih =>
    rw [List.map_cons, runLines, extentLines, ih]
    rcases e with ⟨c, _ | p⟩ <;> rfl

theorem Yields.delivers {r : DataRuns} {xs : List DataRun} (h : Yields r xs) : Delivers r xs none := by
  induction h with
  | done h => exact .done _ _ h
  | step h _ ih => exact .step _ _ _ _ _ h ih

/-- **C63**: for a non-resident attribute that is stored in the extents `es`, `attr_runs` prints one line per
extent with its byte address and length, and the bytes that these lines point to are what a read of the
value returns. -/
theorem C63_runs_locate {file : NFile} {off len : Nat} (hat : AttrAt file.recordData off len)
    (hc : Complete true file off) (hr : field file.recordData (off + 8) 1 ≠ 0) {img : Bytes} {es : List Extent}
    (hstart : field file.recordData (off + 32) 2 ≤ len)
    (hst : StoredAs file.ntfs.clusterSize img ((file.recordData.drop (off + field file.recordData (off + 32) 2)).take
      (len - field file.recordData (off + 32) 2)) es)
    {record : Nat} {nested : Bool} {t : AttrType} {nm : List Nat} (hty : field file.recordData off 4 = t.code)
    (hnm : NameIs file.recordData off nm) {l : List AttrLine} {o : Option Err}
    (h : Printed true file off record nested l o) :
    o = none ∧ l = lineAt file off record nested t nm :: extentLines nested file.ntfs.clusterSize 0 es ∧
    ∀ d : Dev, d.Ok img → ∃ v, Attr.value ⟨file, off, none⟩ d = (.ok (.simple (.nonRes v)), d) ∧
      ∀ ops : List Op, (∀ op ∈ ops, op.InRange) → (v.run d ops).1 =
        (Flat.run { content := (l.flatMap (pointsTo img)).take (SizeAt file off), len := SizeAt file off, pos := 0 }
          ops).1 := by
  have hl := hat.length
  have hdel : Delivers (runsAt file off) (es.map (runOf file.ntfs.clusterSize)) none := by
    unfold runsAt
    rw [hl]
    exact (yields_encoded (DataRuns.new file.ntfs.clusterSize _ _) es (by simpa [DataRuns.new] using hst.enc)
      hst.clusterPos hst.rep hst.nonZero).delivers
  have hp : Printed true file off record nested _ none :=
    .runs t nm _ none rfl hty hnm hr (by omega) hdel
  obtain ⟨rfl, rfl⟩ := h.unique hp
  refine ⟨rfl, by rw [runLines_extents], fun d hd => ?_⟩
  have hcont : (lineAt file off record nested t nm ::
      runLines nested 0 (es.map (runOf file.ntfs.clusterSize))).flatMap (pointsTo img) =
      content file.ntfs.clusterSize img es := by
    rw [List.flatMap_cons, runLines_points]
    rfl
  rw [hcont]
  unfold Complete at hc
  rw [if_neg hr] at hc
  have hsz : SizeAt file off = field file.recordData (off + 48) 8 := by unfold SizeAt; rw [if_neg hr]
  have hlt : SizeAt file off < U64 := by rw [hsz]; exact field_lt (a := off + 48) (n := 8) (by omega)
  have en := Attr.nonResidentValue_eq (a := ⟨file, off, none⟩) hat.plain.header hr hc _ _ rfl rfl hat.plain.inside
  simp only [Attr.recordData] at en
  rw [hl, if_neg (by omega), ← hsz] at en
  obtain ⟨v, h1, _⟩ := C01_flat_file _ img _ es (Pos.add file.position (off + field file.recordData (off + 32) 2))
    (SizeAt file off) hst hlt d hd.2 hd.1 [] (by simp)
  refine ⟨v, ?_, fun ops hops => ?_⟩
  · have ev : Attr.simpleValue ⟨file, off, none⟩ = .ok (.nonRes v) := by
      unfold Attr.simpleValue
      rw [Attr.isResident_eq hat.plain.header, Res.bind_ok]
      simp only [Attr.recordData]
      rw [if_neg (by simpa using hr), en, h1]
      rfl
    unfold Attr.value
    dsimp only
    rw [StM.bind_of_ok (s' := d) (by rw [StM.lift_apply, ev])]
    rfl
  · obtain ⟨v', k1, k2, _⟩ := C01_flat_file _ img _ es
      (Pos.add file.position (off + field file.recordData (off + 32) 2)) (SizeAt file off) hst hlt d hd.2 hd.1 ops hops
    rw [h1] at k1
    injection k1 with k1
    subst k1
    exact k2

/-! ### Examples -/

/-- The table of record 3 of the volume of C23: its attribute list, and the streams "a" and "b" that the list
leads to. -/
def exAttrLines : List AttrLine :=
  [.attribute false 1 .attributeList false 3 (some 504) 56 [], .run false 0 (some 576) 64,
   .attribute true 0 .data false 1 (some 248) 64 ['a'], .run true 0 (some 640) 64,
   .attribute true 0 .data false 2 (some 376) 64 ['b'], .run true 0 (some 704) 64]

theorem Delivers.one {r : DataRuns} {x : DataRun} (h : r.next.1 = some (.ok x)) (h' : r.next.2.next.1 = none) :
    Delivers r [x] none :=
  .step r r.next.2 x [] none (Prod.ext h rfl) (.done _ r.next.2.next.2 (Prod.ext h' rfl))

set_option maxRecDepth 20000 in
theorem exFlatTabular : Tabular true exFlatView [56] 128 where
  volume := rfl
  record := exFlatChain.2.2.2.1
  mft := ⟨_, _, _, _, _, exFlatMft⟩
  chain := exFlatChain.1
  end' := fun _ => .inl (fun h => absurd h (by decide))
  complete := by
    intro off ho
    simp only [List.mem_cons, List.not_mem_nil, or_false] at ho
    subst ho
    unfold Complete; decide
  lists := by
    intro off ho _
    simp only [List.mem_cons, List.not_mem_nil, or_false] at ho
    subst ho
    refine .inr ⟨72, _, exFlatChain.2.1, exFlatList, fun e he => ?_⟩
    simp only [List.mem_cons, List.not_mem_nil, or_false] at he
    rcases he with rfl | rfl
    · exact .inr ⟨⟨.data, rfl⟩, .inr ⟨_, _, exFlatLoads.1, by unfold Complete; decide⟩⟩
    · exact .inr ⟨⟨.data, rfl⟩, .inr ⟨_, _, exFlatLoads.2, by unfold Complete; decide⟩⟩

set_option maxRecDepth 20000 in
theorem exFlatTable : Table true exFlatView 128 [56] exAttrLines (.ok ()) := by
  have a : Printed true (exFlatFile 3) 56 3 false
      [.attribute false 1 .attributeList false 3 (some 504) 56 [], .run false 0 (some 576) 64] none := by
    have h := Printed.runs (withRuns := true) (file := exFlatFile 3) (off := 56) (record := 3) (nested := false)
      .attributeList [] _ _ rfl (by decide) ⟨by decide, by decide⟩ (by decide) (by decide)
      (Delivers.one (x := ⟨some 576, 64, 0⟩) (by decide +kernel) (by decide +kernel))
    have e : lineAt (exFlatFile 3) 56 3 false .attributeList [] =
      .attribute false 1 .attributeList false 3 (some 504) 56 [] := by decide +kernel
    rw [e] at h
    exact h
  have b : Printed true (exFlatFile 1) 56 1 true
      [.attribute true 0 .data false 1 (some 248) 64 ['a'], .run true 0 (some 640) 64] none := by
    have h := Printed.runs (withRuns := true) (file := exFlatFile 1) (off := 56) (record := 1) (nested := true)
      .data [97] _ _ rfl (by decide) ⟨by decide, by decide⟩ (by decide) (by decide)
      (Delivers.one (x := ⟨some 640, 64, 0⟩) (by decide +kernel) (by decide +kernel))
    have e : lineAt (exFlatFile 1) 56 1 true .data [97] =
      .attribute true 0 .data false 1 (some 248) 64 ['a'] := by decide +kernel
    rw [e] at h
    exact h
  have c : Printed true (exFlatFile 2) 56 2 true
      [.attribute true 0 .data false 2 (some 376) 64 ['b'], .run true 0 (some 704) 64] none := by
    have h := Printed.runs (withRuns := true) (file := exFlatFile 2) (off := 56) (record := 2) (nested := true)
      .data [98] _ _ rfl (by decide) ⟨by decide, by decide⟩ (by decide) (by decide)
      (Delivers.one (x := ⟨some 704, 64, 0⟩) (by decide +kernel) (by decide +kernel))
    have e : lineAt (exFlatFile 2) 56 2 true .data [98] =
      .attribute true 0 .data false 2 (some 376) 64 ['b'] := by decide +kernel
    rw [e] at h
    exact h
  exact .list (V := exFlatView) 56 72 [] _ _ _ _ _ exFlatChain.2.1 exFlatList a
    (.shown (V := exFlatView) (exFlatEntry 1 97) _ _ _ _ _ _ (by decide) exFlatLoads.1 b
      (.shown (V := exFlatView) (exFlatEntry 2 98) _ _ _ _ _ _ (by decide) exFlatLoads.2 c .nil))
    (.done (fun h => absurd h (by decide)))

/-- **C63**: `attr` and `fileinfo` do not agree on what a file has. `attr_runs` shows the stream "b" of record 3 of
the example volume, `fileinfo` shows the stream "a" only (the iteration passes over "b", C50). -/
theorem C63_fileinfo_disagrees : ∃ n0, ∀ fuel ≥ n0, ∀ d : Dev, d.Ok exFlatImage →
    (∃ d', exFlatView.base.attr true exFlatNtfs fuel d = (.ok (), exAttrLines, d')) ∧
    ∃ d', exFlatView.base.fileinfo fuel d = (.ok (), [headerLine exFlatView.base,
      .head .data, .streamName ['a'], .streamSize 64], d') := by
  obtain ⟨l, q, h1, n0, h2⟩ := C63_attr true [56] 128 exFlatTabular
  obtain ⟨rfl, rfl⟩ := C63_determined exFlatTabular exFlatTable h1
  refine ⟨max n0 2, fun fuel hf d hd => ⟨?_, ?_⟩⟩
  · obtain ⟨d', h, _⟩ := h2 fuel (by omega) d hd
    exact ⟨d', h⟩
  · obtain ⟨q, l, d', g1, _, g3⟩ := C62_fileinfo exFlatView_flattened (by
      intro s hs file off hat
      simp only [List.mem_cons, List.not_mem_nil, or_false] at hs
      subst hs
      obtain ⟨rfl, rfl⟩ := Loads.unique (t := .data) rfl hat exFlatLoads.1
      exact ⟨fun h => absurd h (by decide +kernel), fun h => absurd h (by decide +kernel), fun _ => by decide +kernel⟩)
      fuel (by simp; omega) d hd
    have e : SizeAt (exFlatFile 1) 56 = 64 := by decide +kernel
    have k := InfoOf.stream (file := exFlatFile 1) (off := 56) [97] (by decide +kernel) ⟨by decide, by decide +kernel⟩
    rw [e] at k
    obtain ⟨rfl, rfl⟩ := C62_determined exFlatView_flattened.known g3
      (.shown (V := exFlatView) (.entry (exFlatEntry 1 97) [exFlatEntry 2 98]) [] (exFlatFile 1) 56 _ _ _
        exFlatLoads.1 k (.done rfl))
    exact ⟨d', g1⟩

/-- `attr_runs F` of the example volume: the runs of the unnamed stream are cluster 7, a hole and cluster 6. -/
def exFileLines : List AttrLine :=
  [.attribute false 1 .fileName true 12 (some 2616) 68 [],
   .attribute false 2 .data false 12 (some 2712) 1100 [], .run false 0 (some 3584) 512, .run false 1 none 512,
   .run false 2 (some 3072) 512,
   .attribute false 3 .data true 12 (some 2792) 2 ['s']]

theorem exFile_complete : ∀ off ∈ [56, 152, 232], Complete true exFile.base off := by
  intro off ho
  simp only [List.mem_cons, List.not_mem_nil, or_false] at ho
  unfold Complete
  show off + (if field (exFixed exDiskRec12) (off + 8) 1 = 0 then (if true then 22 else 20) else 56) ≤
    (exFixed exDiskRec12).length
  rcases ho with rfl | rfl | rfl <;> decide +kernel

theorem exFile_tabular : Tabular true exFile [56, 152, 232] 272 where
  volume := rfl
  record := by show 32 ≤ (exFixed exDiskRec12).length; decide +kernel
  mft := exRec_hasMft _ _ _ _
  chain := by
    show Chain (exFixed exDiskRec12) (field (exFixed exDiskRec12) 20 2) _ _
    rw [show field (exFixed exDiskRec12) 20 2 = 56 by decide +kernel]
    exact .cons exFile_attrs.1 (.cons exFile_attrs.2.1 (.cons exFile_attrs.2.2 (.nil 272)))
  end' := fun _ => .inl (fun _ => by show field (exFixed exDiskRec12) 272 4 = _; decide +kernel)
  complete := exFile_complete
  lists := by
    intro off ho h
    have : ∀ o ∈ [56, 152, 232], field (exFixed exDiskRec12) o 4 ≠ 0x20 := by decide +kernel
    exact absurd h (this off ho)

theorem exFile_runs : StoredAs 512 exDisk ((exFileNF.recordData.drop (152 + 64)).take (80 - 64))
    [⟨1, some 7⟩, ⟨1, none⟩, ⟨1, some 6⟩] where
  clusterPos := by decide
  enc := by
    have hb : List.take (80 - 64) (List.drop (152 + 64) exFileNF.recordData) =
        [0x11, 1, 7, 0x01, 1, 0x11, 1, 0xFF, 0, 0, 0, 0, 0, 0, 0, 0] := by
      show List.take (80 - 64) (List.drop (152 + 64) (exFixed exDiskRec12)) = _
      decide +kernel
    rw [hb]
    refine .run 0 1 1 ⟨1, some 7⟩ _ [0x01, 1, 0x11, 1, 0xFF, 0, 0, 0, 0, 0, 0, 0, 0] ?_
      (.run 7 1 0 ⟨1, none⟩ _ [0x11, 1, 0xFF, 0, 0, 0, 0, 0, 0, 0, 0] ?_
      (.run 7 1 1 ⟨1, some 6⟩ _ [0, 0, 0, 0, 0, 0, 0, 0] ?_ (.terminated _ _)))
    · simp [WidthsOk, FitsSigned]
    · simp [WidthsOk]
    · simp [WidthsOk, FitsSigned]
  rep := by simp [Representable]
  nonZero := by simp [NonZero, Extent.lcnAfter]
  inImage := by
    intro e he l hl
    rw [exDisk_length]
    simp only [List.mem_cons, List.not_mem_nil, or_false] at he
    rcases he with rfl | rfl | rfl
    · injection hl with hl; subst hl; decide
    · cases hl
    · injection hl with hl; subst hl; decide
  imgLt := by rw [exDisk_length]; decide

theorem exFile_printed :
    Printed true exFileNF 56 12 false [.attribute false 1 .fileName true 12 (some 2616) 68 []] none ∧
    Printed true exFileNF 152 12 false [.attribute false 2 .data false 12 (some 2712) 1100 [],
      .run false 0 (some 3584) 512, .run false 1 none 512, .run false 2 (some 3072) 512] none ∧
    Printed true exFileNF 232 12 false [.attribute false 3 .data true 12 (some 2792) 2 ['s']] none := by
  have line : ∀ off t nm, lineAt exFileNF off 12 false t nm =
      .attribute false (field (exFixed exDiskRec12) (off + 14) 2) t
        (decide (field (exFixed exDiskRec12) (off + 8) 1 = 0)) 12 (Pos.add (some 2560) off)
        (if field (exFixed exDiskRec12) (off + 8) 1 = 0 then field (exFixed exDiskRec12) (off + 16) 4
          else field (exFixed exDiskRec12) (off + 48) 8) (lossy nm) := fun _ _ _ => rfl
  refine ⟨?_, ?_, ?_⟩
  · have h := Printed.resident (withRuns := true) (file := exFileNF) (off := 56) (record := 12) (nested := false)
      .fileName [] rfl (by show field (exFixed exDiskRec12) 56 4 = _; decide +kernel)
      (by show NameIs (exFixed exDiskRec12) 56 []; exact ⟨by decide, by decide +kernel⟩)
      (by show field (exFixed exDiskRec12) _ _ = _; decide +kernel)
      (by show field (exFixed exDiskRec12) _ _ + field (exFixed exDiskRec12) _ _ ≤ field (exFixed exDiskRec12) _ _
          decide +kernel)
    rw [line, show field (exFixed exDiskRec12) (56 + 14) 2 = 1 by decide +kernel,
      show field (exFixed exDiskRec12) (56 + 8) 1 = 0 by decide +kernel,
      show field (exFixed exDiskRec12) (56 + 16) 4 = 68 by decide +kernel] at h
    exact h
  · have hs : field exFileNF.recordData (152 + 32) 2 = 64 := by
      show field (exFixed exDiskRec12) (152 + 32) 2 = 64; decide +kernel
    have hl : field exFileNF.recordData (152 + 4) 4 = 80 := exFile_attrs.2.1.length
    have hd : Delivers (runsAt exFileNF 152) ([⟨1, some 7⟩, ⟨1, none⟩, ⟨1, some 6⟩].map (runOf 512)) none := by
      have h := (yields_encoded (DataRuns.new 512 _ (Pos.add (some 2560) (152 + 64))) _
        (by simpa [DataRuns.new] using exFile_runs.enc) exFile_runs.clusterPos exFile_runs.rep
        exFile_runs.nonZero).delivers
      unfold runsAt
      rw [hs, hl]
      exact h
    have h := Printed.runs (withRuns := true) (file := exFileNF) (off := 152) (record := 12) (nested := false)
      .data [] _ _ rfl (by show field (exFixed exDiskRec12) _ _ = _; decide +kernel) exFile_names.1
      (by show field (exFixed exDiskRec12) _ _ ≠ _; decide +kernel) (by rw [hs, hl]; decide) hd
    rw [line, show field (exFixed exDiskRec12) (152 + 14) 2 = 2 by decide +kernel,
      show field (exFixed exDiskRec12) (152 + 8) 1 = 1 by decide +kernel,
      show field (exFixed exDiskRec12) (152 + 48) 8 = 1100 by decide +kernel] at h
    exact h
  · have h := Printed.resident (withRuns := true) (file := exFileNF) (off := 232) (record := 12) (nested := false)
      .data [115] rfl (by show field (exFixed exDiskRec12) _ _ = _; decide +kernel) exFile_names.2
      (by show field (exFixed exDiskRec12) _ _ = _; decide +kernel)
      (by show field (exFixed exDiskRec12) _ _ + field (exFixed exDiskRec12) _ _ ≤ field (exFixed exDiskRec12) _ _
          decide +kernel)
    rw [line, show field (exFixed exDiskRec12) (232 + 14) 2 = 3 by decide +kernel,
      show field (exFixed exDiskRec12) (232 + 8) 1 = 0 by decide +kernel,
      show field (exFixed exDiskRec12) (232 + 16) 4 = 2 by decide +kernel,
      show lossy [115] = ['s'] by decide +kernel] at h
    exact h

theorem exFile_table : Table true exFile 272 [56, 152, 232] exFileLines (.ok ()) := by
  have hty : ∀ o ∈ [56, 152, 232], field (exFixed exDiskRec12) o 4 ≠ 0x20 := by decide +kernel
  exact .shown (V := exFile) 56 _ _ _ _ (hty 56 (by simp)) exFile_printed.1
    (.shown (V := exFile) 152 _ _ _ _ (hty 152 (by simp)) exFile_printed.2.1
    (.shown (V := exFile) 232 _ _ _ _ (hty 232 (by simp)) exFile_printed.2.2
    (.done (fun _ => by show field (exFixed exDiskRec12) 272 4 = _; decide +kernel))))

/-- `attr_runs F` in the root directory of the example volume. -/
example : ∃ n0, ∀ fuel ≥ n0, ∀ d : Dev, d.Ok exDisk →
    ∃ d', (Shell.mk [exRoot.base] [] (exVol (some exTable))).attr true ['F'] fuel d =
      (.ok (.ok ()), exFileLines, d') := by
  obtain ⟨n0, h⟩ := C63_command (Shell.mk [exRoot.base] [] (exVol (some exTable))) true (F := exFile) rfl ['F']
    exFile_tabular exFile_table
  refine ⟨max n0 20, fun fuel hf d hd => ?_⟩
  obtain ⟨d1, e1, hd1⟩ := C59_by_name (D := exRoot) (F := exFile) (Shell.mk [exRoot.base] [] (exVol (some exTable)))
    rfl exRoot_dir rfl exTable_length ['F'] (by decide) (by decide) exNames_file (exRec_records _).2.2.2
    (exRec_hasMft _ _ _ _) rfl rfl fuel
    (Nat.lt_of_lt_of_le (m := 20) (by decide) (by omega)) (Nat.le_trans (m := 20) (by decide) (by omega)) d hd
  obtain ⟨d', _, h1, _⟩ := h fuel (by omega) d d1 hd1 e1
  exact ⟨d', h1 rfl⟩

/-- What the lines about the unnamed stream point to is what is read from it. -/
example (d : Dev) (hd : d.Ok exDisk) (ops : List Op) (hops : ∀ op ∈ ops, op.InRange) :
    ∃ v, Attr.value ⟨exFileNF, 152, none⟩ d = (.ok (.simple (.nonRes v)), d) ∧
    (v.run d ops).1 = (Flat.run { content := (((exDisk.drop 3584).take 512 ++ (List.replicate 512 0 ++
      (exDisk.drop 3072).take 512))).take 1100, len := 1100, pos := 0 } ops).1 := by
  have hs : field exFileNF.recordData (152 + 32) 2 = 64 := by
    show field (exFixed exDiskRec12) (152 + 32) 2 = 64; decide +kernel
  obtain ⟨_, _, h⟩ := C63_runs_locate (file := exFileNF) (off := 152) exFile_attrs.2.1 (exFile_complete 152 (by simp))
    (by show field (exFixed exDiskRec12) _ _ ≠ _; decide +kernel) (by rw [hs]; decide) (by rw [hs]; exact exFile_runs)
    (t := .data) (by show field (exFixed exDiskRec12) _ _ = _; decide +kernel) exFile_names.1 exFile_printed.2.1
  obtain ⟨v, h1, h2⟩ := h d hd
  refine ⟨v, h1, ?_⟩
  rw [h2 ops hops]
  have e : SizeAt exFileNF 152 = 1100 := by
    show (if field (exFixed exDiskRec12) (152 + 8) 1 = 0 then field (exFixed exDiskRec12) (152 + 16) 4
      else field (exFixed exDiskRec12) (152 + 48) 8) = _
    decide +kernel
  have e' : [AttrLine.attribute false 2 .data false 12 (some 2712) 1100 [], .run false 0 (some 3584) 512,
      .run false 1 none 512, .run false 2 (some 3072) 512].flatMap (pointsTo exDisk) =
      (exDisk.drop 3584).take 512 ++ (List.replicate 512 0 ++ (exDisk.drop 3072).take 512) := by
    simp only [List.flatMap_cons, List.flatMap_nil, pointsTo, List.nil_append, List.append_nil]
  rw [e, e']

/-- An attribute list of 4 bytes at offset 30 of an attribute of 32 bytes: the attribute is shown, and then the
command ends with the error. -/
def exLostFile : NFile := ⟨exVolNtfs, ⟨
  [70, 73, 76, 69, 48, 0, 1, 0, 0, 0, 0, 0, 0, 0, 0, 0,
   1, 0, 1, 0, 56, 0, 1, 0, 88, 0, 0, 0, 88, 0, 0, 0,
   0, 0, 0, 0, 0, 0, 0, 0, 3, 0, 0, 0, 0, 0, 0, 0,
   0, 0, 0, 0, 0, 0, 0, 0,
   0x20, 0, 0, 0, 32, 0, 0, 0, 0, 0, 0, 0, 0, 0, 7, 0, 4, 0, 0, 0, 30, 0, 0, 0,
   0, 0, 0, 0, 0, 0, 0, 0], some 192⟩, 3⟩

def exLostView : View := ⟨exVolNtfs, exVolImage, [⟨6, none⟩, ⟨2, some 3⟩], exLostFile⟩

set_option maxRecDepth 20000 in
example : ∃ n0, ∀ fuel ≥ n0, ∀ d : Dev, d.Ok exVolImage → ∃ d', exLostFile.attr false exVolNtfs fuel d =
    (.err (.invalidResidentAttributeValueLength (some 248) 4 30 32),
      [.attribute false 7 .attributeList true 3 (some 248) 4 []], d') := by
  have hat : AttrAt exLostFile.recordData 56 32 := ⟨by decide, by decide, by decide, by decide⟩
  have hx : ListLost exLostFile 56 (.invalidResidentAttributeValueLength (some 248) 4 30 32) :=
    ⟨by decide, by decide, by decide, .inr ⟨by decide, by decide, by decide⟩⟩
  have ht : Tabular false exLostView [56] 88 :=
    { volume := rfl
      record := by decide
      mft := ⟨_, _, _, _, _, exVolMft_stored⟩
      chain := by
        rw [show field exLostView.base.recordData 20 2 = 56 by decide]
        exact .cons hat (.nil 88)
      end' := fun _ => .inl (fun h => absurd h (by decide))
      complete := by
        intro off ho
        simp only [List.mem_cons, List.not_mem_nil, or_false] at ho
        subst ho
        unfold Complete; decide
      lists := by
        intro off ho _
        simp only [List.mem_cons, List.not_mem_nil, or_false] at ho
        subst ho
        exact .inl ⟨_, hx⟩ }
  obtain ⟨l, q, h1, n0, h2⟩ := C63_attr false [56] 88 ht
  have hp : Printed false exLostFile 56 3 false [.attribute false 7 .attributeList true 3 (some 248) 4 []] none := by
    have h := Printed.short (withRuns := false) (file := exLostFile) (off := 56) (record := 3) (nested := false)
      .attributeList [] rfl (by decide) ⟨by decide, by decide⟩
    have e : lineAt exLostFile 56 3 false .attributeList [] =
      .attribute false 7 .attributeList true 3 (some 248) 4 [] := by decide +kernel
    rw [e] at h
    exact h
  have hl : Table false exLostView 88 [56] _ _ := .listLost (V := exLostView) 56 [] _ _ hx hp
  obtain ⟨rfl, rfl⟩ := C63_determined ht hl h1
  refine ⟨n0, fun fuel hf d hd => ?_⟩
  obtain ⟨d', h, _⟩ := h2 fuel hf d hd
  exact ⟨d', h⟩

example (d : Dev) (hd : d.Ok exDisk) :=
  C63_no_file (Shell.mk [exRoot.base] [] (exVol (some exTable))) true (D := exRoot) rfl exRoot_dir rfl exTable_ok exNoFile 20 (by decide) (by decide) d hd
example := C63_nothing_hidden exFile_tabular exFile_table

end NT
