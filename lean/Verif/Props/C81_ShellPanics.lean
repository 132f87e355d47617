import Verif.Lemmas.TameShell
import Verif.Props.C80_Panics
import Verif.Props.C57_Navigate

/-! C81: the shell crashes only for three reasons. On a volume without the malformations of C80 a session ends with a
panic only if a line that is not UTF-8 is typed, if the volume has an index entry without a key that is not the last
entry of its node, or if it has a file name with a backslash. -/

namespace NT

open Spec

namespace Spec

/-- A program can come across an index entry without a key that is not the last one of its node. -/
def Keyless (n : Ntfs) (img : Bytes) : Prop :=
  ∃ e, Use.Obtained n img (.indexEntry e) ∧ e.isLast = .ok false ∧ e.keyLength = .ok 0

/-- A program can come across a file name with a backslash (the UTF-16 unit 92). -/
def Slashed (n : Ntfs) (img : Bytes) : Prop := ∃ x : FileName, Use.Obtained n img (.name x) ∧ 92 ∈ u16s x.name

end Spec

/-! ### Entries that a traversal yields are not last ones -/

/-- The entries that wait until their subnodes are done are not last ones. -/
inductive Waiting : List NodeRanges → List (Option EntryRange) → Prop
  | ended : Waiting [] []
  | root (n : NodeRanges) : Waiting [n] []
  | push {n m : NodeRanges} {ns : List NodeRanges} {f : Option EntryRange} {fs : List (Option EntryRange)}
      (hf : ∀ r, f = some r → ∀ e, r.toEntry m.data = .ok e → e.isLast = .ok false) (hs : Waiting (m :: ns) fs) :
      Waiting (n :: m :: ns) (f :: fs)

theorem Waiting.top {n n' : NodeRanges} {ns : List NodeRanges} {fs : List (Option EntryRange)}
    (h : Waiting (n :: ns) fs) : Waiting (n' :: ns) fs := by
  cases h with
  | root => exact .root n'
  | push hf hs => exact .push hf hs

theorem IndexEntries.inspect_last {r : EntryRange} {b : Bytes} {last : Bool} {v : Option Int}
    (h : IndexEntries.inspect r b = .ok (last, v)) (e : IEntry) (he : r.toEntry b = .ok e) : e.isLast = .ok last := by
  unfold IndexEntries.inspect at h
  rw [he, Res.bind_ok] at h
  obtain ⟨l, hl, h⟩ := Res.bind_eq_ok.mp h
  obtain ⟨_, _, h⟩ := Res.bind_eq_ok.mp h
  cases h
  exact hl

theorem IndexEntries.loop_waits (ix : Index) (fuel : Nat) (it : IndexEntries) (d : Dev)
    (h : Waiting it.inner it.following) :
    Waiting (IndexEntries.loop ix fuel (it, d)).2.1.inner (IndexEntries.loop ix fuel (it, d)).2.1.following ∧
      ∀ x, (IndexEntries.loop ix fuel (it, d)).1 = .ok (some x) →
        ∃ top below, (IndexEntries.loop ix fuel (it, d)).2.1.inner = top :: below ∧
          ∀ e, x.toEntry top.data = .ok e → e.isLast = .ok false := by
  induction fuel generalizing it d with
  | zero => exact ⟨h, fun x hx => by cases hx⟩
  | succ fuel ih =>
    obtain ⟨inner, following⟩ := it
    dsimp only at h
    unfold IndexEntries.loop
    cases inner with
    | nil => exact ⟨h, fun x hx => by cases hx⟩
    | cons top below =>
      dsimp only
      generalize top.next = q
      obtain ⟨r, top'⟩ := q
      have h1 : Waiting (top' :: below) following := h.top
      cases r with
      | panic p => exact ⟨h1, fun x hx => by cases hx⟩
      | diverge => exact ⟨h1, fun x hx => by cases hx⟩
      | err e => exact ⟨h1, fun x hx => by cases hx⟩
      | ok o =>
        cases o with
        | none =>
          dsimp only
          cases following with
          | nil =>
            refine ⟨?_, fun x hx => by cases hx⟩
            cases h with
            | root => exact .ended
          | cons f fs =>
            cases h with
            | @push _ m ns _ _ hf hs =>
              cases f with
              | none => exact ih ⟨m :: ns, fs⟩ d hs
              | some r =>
                refine ⟨hs, fun x hx => ?_⟩
                cases hx
                exact ⟨m, ns, rfl, hf r rfl⟩
        | some r =>
          dsimp only
          cases hi : IndexEntries.inspect r top'.data with
          | panic p => exact ⟨h1, fun x hx => by cases hx⟩
          | diverge => exact ⟨h1, fun x hx => by cases hx⟩
          | err e => exact ⟨h1, fun x hx => by cases hx⟩
          | ok q =>
            obtain ⟨last, vcn⟩ := q
            cases vcn with
            | none =>
              cases last with
              | true => exact ih ⟨top' :: below, following⟩ d h1
              | false =>
                refine ⟨h1, fun x hx => ?_⟩
                cases hx
                exact ⟨top', below, rfl, IndexEntries.inspect_last hi⟩
            | some v =>
              dsimp only
              generalize ix.subnode v d = s
              obtain ⟨rs, d'⟩ := s
              cases rs with
              | panic p => exact ⟨h1, fun x hx => by cases hx⟩
              | diverge => exact ⟨h1, fun x hx => by cases hx⟩
              | err e => exact ⟨h1, fun x hx => by cases hx⟩
              | ok sub =>
                refine ih ⟨sub :: top' :: below, (if last then none else some r) :: following⟩ d' (.push ?_ h1)
                intro x hx
                cases last with
                | true => cases hx
                | false => cases hx; exact IndexEntries.inspect_last hi

theorem IndexEntries.next_waits (ix : Index) (fuel : Nat) (it : IndexEntries) (d : Dev)
    (h : Waiting it.inner it.following) :
    Waiting (IndexEntries.next ix fuel (it, d)).2.1.inner (IndexEntries.next ix fuel (it, d)).2.1.following ∧
      ∀ e, (IndexEntries.next ix fuel (it, d)).1 = .ok (some e) → e.isLast = .ok false := by
  obtain ⟨h1, h2⟩ := IndexEntries.loop_waits ix fuel it d h
  unfold IndexEntries.next
  generalize IndexEntries.loop ix fuel (it, d) = q at h1 h2
  obtain ⟨r, it', d'⟩ := q
  cases r with
  | panic p => exact ⟨h1, fun x hx => by cases hx⟩
  | diverge => exact ⟨h1, fun x hx => by cases hx⟩
  | err e => exact ⟨h1, fun x hx => by cases hx⟩
  | ok o =>
    cases o with
    | none => exact ⟨h1, fun x hx => by cases hx⟩
    | some x =>
      obtain ⟨top, below, hin, hl⟩ := h2 x rfl
      dsimp only at hin ⊢
      unfold IndexEntries.entryOf
      rw [hin]
      dsimp only
      cases he : x.toEntry top.data with
      | panic p => exact ⟨h1, fun x hx => by cases hx⟩
      | diverge => exact ⟨h1, fun x hx => by cases hx⟩
      | err e => exact ⟨h1, fun x hx => by cases hx⟩
      | ok e => exact ⟨h1, fun x hx => by cases hx; exact hl e he⟩

/-- An entry that `find` delivers has a key. -/
theorem Index.find_key {κ : Type} {kf : Bytes → Pos → Res κ} {cmp : κ → Res Ordering} {ix : Index} {fuel : Nat}
    {d d' : Dev} {e : IEntry} (h : ix.find kf cmp fuel d = (.ok (some e), d')) : ∃ k, e.key kf = .ok (some k) := by
  have key : ∀ (fuel : Nat) (it : NodeRanges) (d : Dev), Index.findLoop kf cmp ix fuel it d = (.ok (some e), d') →
      ∃ k, e.key kf = .ok (some k) := by
    intro fuel
    induction fuel with
    | zero => intro it d h; cases h
    | succ fuel ih =>
      intro it d h
      unfold Index.findLoop at h
      generalize it.next = q at h
      obtain ⟨r, it'⟩ := q
      cases r with
      | panic p => cases h
      | diverge => cases h
      | err x => cases h
      | ok o =>
        cases o with
        | none => cases h
        | some r =>
          dsimp only at h
          cases hr : r.toEntry it'.data with
          | panic p => rw [hr] at h; cases h
          | diverge => rw [hr] at h; cases h
          | err x => rw [hr] at h; cases h
          | ok e' =>
            rw [hr] at h
            dsimp only at h
            cases hj : Index.judge kf cmp e' with
            | panic p => rw [hj] at h; cases h
            | diverge => rw [hj] at h; cases h
            | err x => rw [hj] at h; cases h
            | ok o =>
              rw [hj] at h
              cases o with
              | none =>
                dsimp only at h
                split at h
                · cases h
                · generalize ix.subnode _ d = q at h
                  obtain ⟨r, d1⟩ := q
                  cases r with
                  | ok sub => exact ih _ _ h
                  | panic p => cases h
                  | diverge => cases h
                  | err x => cases h
                · cases h
                · cases h
                · cases h
              | some b =>
                cases b with
                | false => exact ih _ _ h
                | true =>
                  rw [Res.bind_ok] at h
                  cases h
                  unfold Index.judge at hj
                  obtain ⟨o, ho, hj⟩ := Res.bind_eq_ok.mp hj
                  cases o with
                  | none => cases hj
                  | some k => exact ⟨k, ho⟩
  exact key fuel _ d h

/-! ### Backslashes -/

theorem ofNat_slash {u : Nat} (e : Char.ofNat u = '\\') : u = 92 := by
  unfold Char.ofNat at e
  split at e
  · rename_i hv
    have h := congrArg Char.toNat e
    rw [show (Char.ofNatAux u hv).toNat = u from rfl] at h
    exact h
  · exact absurd e (by decide)

theorem lossy_slash (l : List Nat) (h : '\\' ∈ lossy l) : 92 ∈ l := by
  induction l using lossy.induct with
  | case1 => cases h
  | case2 u hu =>
    rw [lossy, if_pos hu, List.mem_singleton] at h
    exact absurd h (by decide)
  | case3 u hu =>
    rw [lossy, if_neg hu, List.mem_singleton] at h
    exact List.mem_singleton.2 (ofNat_slash h.symm).symm
  | case4 u v s hu ih =>
    rw [lossy, if_pos hu] at h
    rcases List.mem_cons.1 h with h | h
    · exact List.mem_cons.2 (.inl (ofNat_slash h.symm).symm)
    · exact List.mem_cons_of_mem _ (ih h)
  | case5 u v s hu hv ih =>
    rw [lossy, if_neg hu, if_pos hv] at h
    rcases List.mem_cons.1 h with h | h
    · have := ofNat_slash h.symm
      omega
    · exact List.mem_cons_of_mem _ (List.mem_cons_of_mem _ (ih h))
  | case6 u v s hu hv ih =>
    rw [lossy, if_neg hu, if_neg hv] at h
    rcases List.mem_cons.1 h with h | h
    · exact absurd h (by decide)
    · exact List.mem_cons_of_mem _ (ih h)

namespace Use

variable {n : Vol}

/-- What the proofs about a session assume about the volume. -/
structure Sound (n : Vol) : Prop where
  harmless : n.Harmless
  nodes : NodesOk n.ntfs n.img
  fresh : n.ntfs.upcaseTable = none

/-- What a program can have got hold of on this volume. -/
abbrev Gets (n : Vol) (h : Handle) : Prop := Obtained n.ntfs n.img h

theorem Sound.tame (S : Sound n) {h : Handle} (hh : Gets n h) : h.Tame True n :=
  hh.tame S.harmless (fun _ => S.nodes) S.fresh

/-- A call, as a step of a program. -/
theorem Gets.step {α : Type} {p : StM Dev α} {Q : α → Prop} (hp : StM.Tame (Dev.Has n.img) p Q)
    {h : Handle} (hh : Gets n h) {f : α → List Handle}
    (hc : ∀ d, d.img = n.img → Call n.img h (done (p d).1) (gives (p d).1 f)) :
    StM.Tame (Dev.Has n.img) p fun a => Q a ∧ ∀ h' ∈ f a, Gets n h' := by
  intro d hd
  have h1 := hp d hd
  refine ⟨h1.noPanic, h1.keeps, fun a e => ⟨h1.val a e, fun h' hm => .call hh (hc d hd) ?_⟩⟩
  rw [e]
  exact hm

theorem Sound.file (S : Sound n) {m : Ntfs} (hm : Gets n (.volume m)) (k : Nat) :
    StM.Tame (Dev.Has n.img) (m.file k) fun f => Gets n (.file f) ∧ f.ntfs = m :=
  (Gets.step (Ntfs.file_tame S.harmless (S.tame hm) k) hm fun _ hd => .file k hd).weaken fun _ h =>
    ⟨h.2 _ (List.mem_singleton.2 rfl), h.1.2.2⟩

theorem Sound.directoryIndex (S : Sound n) {f : NFile} (hf : Gets n (.file f)) (fuel : Nat) :
    StM.Tame (Dev.Has n.img) (f.directoryIndex fuel) fun ix => Gets n (.index ix) :=
  (Gets.step (NFile.directoryIndex_tame S.harmless (S.tame hf) fuel) hf fun _ hd => .directoryIndex fuel hd).weaken
    fun _ h => h.2 _ (List.mem_singleton.2 rfl)

theorem Sound.findName (S : Sound n) {ix : Index} (hix : Gets n (.index ix)) {m : Ntfs} (hm : Gets n (.volume m))
    (ht : m.upcaseTable ≠ none) {name : List Nat} (hx : ∀ x ∈ name, x < 65536) (fuel : Nat) :
    StM.Tame (Dev.Has n.img) (ix.findName m name fuel) fun o => ∀ e, o = some e → Gets n (.indexEntry e) ∧
      ∃ k, e.key FileName.keyFromSlice = .ok (some k) := by
  have h := S.tame hix
  have h1 := Index.find_good (Index.Tame.loads S.harmless S.nodes hix h) (Index.Tame.root h)
    (fun b p => (FileName.keyFromSlice_tame b p).1)
    (fun f => upcaseCmp_noPanic (S.tame hm) ht hx (u16s_lt (FileName.name f))) fuel
  have h2 := Gets.step h1 (Obtained.both hix hm) fun d hd => .findName fuel ht hx hd
  intro d hd
  refine ⟨(h1 d hd).noPanic, (h1 d hd).keeps, fun o ho e he => ⟨?_, ?_⟩⟩
  · subst he
    exact ((h2 d hd).val _ ho).2 _ (List.mem_singleton.2 rfl)
  · subst he
    exact Index.find_key (d' := (ix.findName m name fuel d).2) (Prod.ext ho rfl)

theorem Sound.entryFile (S : Sound n) {e : IEntry} (he : Gets n (.indexEntry e)) {m : Ntfs}
    (hm : Gets n (.volume m)) : StM.Tame (Dev.Has n.img) (e.toFile m) fun f => Gets n (.file f) ∧ f.ntfs = m := by
  have hg := S.tame he trivial
  exact .bind (Q := fun _ => True)
    (.lift (.bind (idxRange_noPanic (by omega) (by have := hg.1; omega)) fun _ _ => Res.noPanic_ok _) fun _ _ => trivial)
    fun r _ => S.file hm r.fileRecordNumber

theorem Sound.fileName (S : Sound n) {f : NFile} (hf : Gets n (.file f)) (ns : Option Namespace) (parent : Option Nat)
    (fuel : Nat) : StM.Tame (Dev.Has n.img) (f.fileName ns parent fuel) fun o => ∀ x, o = some x → Gets n (.name x) :=
  (Gets.step (NFile.fileName_tame S.harmless (S.tame hf) ns parent fuel) hf fun d hd => .fileName ns parent fuel hd).weaken
    fun o h x e => by subst e; exact h.2 _ (List.mem_singleton.2 rfl)

theorem Sound.bestLoop (S : Sound n) {f : NFile} (hf : Gets n (.file f)) (parent fuel : Nat)
    (l : List (Option Namespace)) :
    StM.Tame (Dev.Has n.img) (bestLoop f parent fuel l) fun o => ∀ x, o = some x → Gets n (.name x) := by
  induction l with
  | nil => exact .pure fun x e => (nomatch e)
  | cons ns l ih =>
    refine .bind (S.fileName hf ns (some parent) fuel) fun o ho => ?_
    cases o with
    | none => exact ih
    | some x => exact .pure ho

theorem Sound.bestFileName (S : Sound n) {f : NFile} (hf : Gets n (.file f)) (parent fuel : Nat) :
    StM.Tame (Dev.Has n.img) (bestFileName f parent fuel) fun o => ∀ x, o = .ok x → Gets n (.name x) := by
  refine .bind (S.bestLoop hf parent fuel _) fun o ho => ?_
  cases o with
  | none => exact .pure fun x e => (nomatch e)
  | some x => exact .pure fun y e => by cases e; exact ho x rfl

/-! ### The commands -/

/-- The shell has got everything from the volume, and the upcase table is read. -/
structure Fit (n : Vol) (s : Shell) : Prop where
  volume : Gets n (.volume s.ntfs)
  table : s.ntfs.upcaseTable ≠ none
  files : ∀ f ∈ s.stack, Gets n (.file f)

theorem Fit.last {s : Shell} (h : Fit n s) (hs : s.stack ≠ []) :
    StM.Tame (Dev.Has n.img) (StM.lift s.last) fun f => Gets n (.file f) := by
  unfold Shell.last
  cases hc : s.stack with
  | nil => exact absurd hc hs
  | cons f l => exact .lift (Res.noPanic_ok _) fun g e => by cases e; exact h.files f (by rw [hc]; exact List.mem_cons_self)

theorem Sound.parseFileArg (S : Sound n) {s : Shell} (h : Fit n s) (hs : s.stack ≠ []) (arg : List Char) (fuel : Nat) :
    StM.Tame (Dev.Has n.img) (s.parseFileArg arg fuel) fun o => ∀ f, o = .ok f → Gets n (.file f) ∧ f.ntfs = s.ntfs := by
  unfold Shell.parseFileArg
  refine .ite (fun _ => .pure fun f e => (nomatch e)) fun _ => ?_
  split
  · split
    · exact .bind (S.file h.volume _) fun f hf => .pure fun g e => by cases e; exact hf
    · exact .pure fun f e => (nomatch e)
  · refine .bind (h.last hs) fun dir hdir => .bind (S.directoryIndex hdir fuel) fun ix hix =>
      .bind (S.findName hix h.volume h.table (utf16_units arg) fuel) fun o ho => ?_
    cases o with
    | none => exact .pure fun f e => (nomatch e)
    | some e => exact .bind (S.entryFile (ho e rfl).1 h.volume) fun f hf => .pure fun g e => by cases e; exact hf

/-- What is known about the shell after `cd`. -/
def Moved (n : Vol) (s : Shell) (r : Option ShellMsg × Shell) : Prop :=
  r.2 = s ∨ (∃ f, ∃ x : FileName, Gets n (.file f) ∧ Gets n (.name x) ∧
    r.2 = { s with path := extendPath s.path (lossy (u16s x.name)), stack := f :: s.stack }) ∨
  (s.path ≠ [] ∧ r.2 = { s with stack := s.stack.drop 1, path := cutLast s.path })

theorem Sound.cd (S : Sound n) {s : Shell} (h : Fit n s) (hs : s.stack ≠ []) (arg : List Char) (fuel : Nat) :
    StM.Tame (Dev.Has n.img) (s.cd arg fuel) (Moved n s) := by
  unfold Shell.cd
  refine .ite (fun _ => .pure (.inl rfl)) fun _ => .ite (fun _ => .ite (fun _ => .pure (.inl rfl)) fun hp =>
    .pure (.inr (.inr ⟨hp, rfl⟩))) fun _ => ?_
  unfold Shell.cdInto
  refine .bind (h.last hs) fun dir hdir => .bind (S.directoryIndex hdir fuel) fun ix hix =>
    .bind (S.findName hix h.volume h.table (utf16_units arg) fuel) fun o ho => ?_
  cases o with
  | none => exact .pure (.inl rfl)
  | some e =>
    obtain ⟨he, k, hk⟩ := ho e rfl
    refine .bind (Q := fun _ => True) (.lift ?_ fun _ _ => trivial) fun key _ => .ite (fun _ => .pure (.inl rfl)) fun _ =>
      .bind (S.entryFile he h.volume) fun f hf => .bind (S.bestFileName hf.1 _ fuel) fun r hr => ?_
    · unfold IEntry.fileNameKey
      rw [hk]
      exact Res.noPanic_ok _
    · cases r with
      | error m => exact .pure (.inl rfl)
      | ok x => exact .pure (.inr (.inl ⟨f, x, hf.1, hr x rfl, rfl⟩))

theorem Sound.dirLoop (S : Sound n) (hk : ¬ Keyless n.ntfs n.img) {ix : Index} (fuel k : Nat)
    (out : List (Bool × Bytes)) (it : IndexEntries) (d : Dev) (hit : Gets n (.traversal ix it))
    (hw : Waiting it.inner it.following) (hd : d.Has n.img) : Prints n.img (dirLoop ix fuel k out (it, d)) := by
  induction k generalizing out it d with
  | zero => exact ⟨Res.noPanic_diverge, hd⟩
  | succ k ih =>
    have hc : Call n.img (.traversal ix it) _ _ := .traversalNext fuel hd
    have ht := S.tame hit
    have hi : Gets n (.index ix) := .call hit .indexOfTraversal (List.mem_singleton.2 rfl)
    have h1 := IndexEntries.next_good (Index.Tame.loads S.harmless S.nodes hi ht.1) fuel (ht.2 trivial) hd
    have h2 := IndexEntries.next_waits ix fuel it d hw
    have h3 := fun h' hm => Obtained.call (h' := h') hit hc hm
    unfold NT.dirLoop
    generalize IndexEntries.next ix fuel (it, d) = q at h1 h2 h3
    obtain ⟨r, it', d'⟩ := q
    cases r with
    | ok o =>
      cases o with
      | none => exact ⟨Res.noPanic_ok _, h1.keeps.2⟩
      | some e =>
        dsimp only
        have he : Gets n (.indexEntry e) := h3 _ (List.mem_cons_of_mem _ (List.mem_singleton.2 rfl))
        have hg := h1.val _ rfl e rfl
        have hp : e.fileNameKey.NoPanic := by
          refine .bind (IEntry.Good.key hg fun b p => (FileName.keyFromSlice_tame b p).1) fun o ho => ?_
          cases o with
          | some x => exact Res.noPanic_ok _
          | none =>
            exfalso
            refine hk ⟨e, he, h2.2 e rfl, ?_⟩
            unfold IEntry.key at ho
            obtain ⟨m, hm, ho⟩ := Res.bind_eq_ok.mp ho
            by_cases h0 : m = 0
            · rw [hm, h0]
            · rw [if_neg h0, h2.2 e rfl, Res.bind_ok, if_neg (by decide)] at ho
              obtain ⟨_, _, ho⟩ := Res.bind_eq_ok.mp ho
              obtain ⟨_, _, ho⟩ := Res.bind_eq_ok.mp ho
              cases ho
        cases hf : e.fileNameKey with
        | ok x => exact ih _ it' d' (h3 _ List.mem_cons_self) h2.1 h1.keeps.2
        | err x => exact ⟨Res.noPanic_err _, h1.keeps.2⟩
        | panic p => exact absurd hf (hp p)
        | diverge => exact ⟨Res.noPanic_diverge, h1.keeps.2⟩
    | err x => exact ⟨Res.noPanic_err _, h1.keeps.2⟩
    | panic p => exact h1.not_panic
    | diverge => exact ⟨Res.noPanic_diverge, h1.keeps.2⟩

theorem Sound.dir (S : Sound n) (hk : ¬ Keyless n.ntfs n.img) {s : Shell} (h : Fit n s) (hs : s.stack ≠ [])
    (fuel : Nat) {d : Dev} (hd : d.Has n.img) : Prints n.img (s.dir fuel d) := by
  have h1 : StM.Tame (Dev.Has n.img) (do let f ← StM.lift s.last; f.directoryIndex fuel : StM Dev Index)
      fun ix => Gets n (.index ix) := .bind (h.last hs) fun f hf => S.directoryIndex hf fuel
  have h1 := h1 d hd
  unfold Shell.dir
  generalize (do let f ← StM.lift s.last; f.directoryIndex fuel : StM Dev Index) d = q at h1
  obtain ⟨r, d'⟩ := q
  cases r with
  | ok ix =>
    exact S.dirLoop hk fuel fuel [] (IndexEntries.new ix) d' (.call (h1.val ix rfl) .entries (List.mem_singleton.2 rfl))
      (.root _) h1.keeps
  | err x => exact ⟨Res.noPanic_err _, h1.keeps⟩
  | panic p => exact h1.not_panic
  | diverge => exact ⟨Res.noPanic_diverge, h1.keeps⟩

theorem Sound.openData (S : Sound n) {s : Shell} (h : Fit n s) (hs : s.stack ≠ []) (file stream : List Char)
    (fuel : Nat) : StM.Tame (Dev.Has n.img) (s.openData file stream fuel) fun o => ∀ v, o = .ok v → v.Tame n := by
  refine .bind (S.parseFileArg h hs file fuel) fun o ho => ?_
  cases o with
  | error m => exact .pure fun v e => (nomatch e)
  | ok f =>
    obtain ⟨hf, hn⟩ := ho f rfl
    refine .bind (NFile.dataItem_tame S.harmless (S.tame hf) ⟨fun _ => by rw [hn]; exact h.table, utf16_units stream⟩ fuel)
      fun o ho => ?_
    cases o with
    | none => exact .pure fun v e => (nomatch e)
    | some i =>
      have hi := ho i rfl
      refine .bind (Q := fun a => a.Tame n) (.lift ?_ ?_) fun a ha => .bind (Attr.value_tame S.harmless ha) fun v hv =>
        .pure fun w e => by cases e; exact hv
      · rw [hi.toAttribute]; exact Res.noPanic_ok _
      · intro a e
        rw [hi.toAttribute] at e
        cases e
        exact hi

theorem Sound.get (S : Sound n) {s : Shell} (h : Fit n s) (hs : s.stack ≠ []) (arg : List Char)
    (ex : List Char → Bool) (fuel : Nat) {d : Dev} (hd : d.Has n.img) :
    (s.getShown arg ex fuel d).1.NoPanic ∧ (s.getShown arg ex fuel d).2.2.2.Has n.img := by
  unfold Shell.getShown
  obtain ⟨file, stream⟩ := splitStream arg
  dsimp only
  split
  · exact ⟨Res.noPanic_ok _, hd⟩
  · have h1 := S.openData h hs file stream fuel d hd
    generalize s.openData file stream fuel d = q at h1
    obtain ⟨r, d'⟩ := q
    cases r with
    | ok o =>
      cases o with
      | error m => exact ⟨Res.noPanic_ok _, h1.keeps⟩
      | ok v =>
        dsimp only
        have h2 := copyLoop_tame (Val.read_tame S.harmless) fuel (v, d') (List.replicate 4096 0) []
          ⟨h1.val _ rfl v rfl, h1.keeps⟩
        generalize copyLoop Val.readFn fuel (v, d') (List.replicate 4096 0) [] = q at h2
        obtain ⟨r, ⟨v', d2⟩, b⟩ := q
        cases r with
        | ok u => exact ⟨Res.noPanic_ok _, h2.2.2⟩
        | err e => exact ⟨Res.noPanic_err _, h2.2.2⟩
        | panic p => exact absurd rfl (h2.1 p)
        | diverge => exact ⟨Res.noPanic_diverge, h2.2.2⟩
    | err e => exact ⟨Res.noPanic_err _, h1.keeps⟩
    | panic p => exact h1.not_panic
    | diverge => exact ⟨Res.noPanic_diverge, h1.keeps⟩

theorem Sound.fileinfo (S : Sound n) {s : Shell} (h : Fit n s) (hs : s.stack ≠ []) (arg : List Char) (fuel : Nat)
    {d : Dev} (hd : d.Has n.img) : Prints n.img (s.fileinfo arg fuel d) := by
  have h1 := S.parseFileArg h hs arg fuel d hd
  unfold Shell.fileinfo
  generalize s.parseFileArg arg fuel d = q at h1
  obtain ⟨r, d'⟩ := q
  cases r with
  | ok o =>
    cases o with
    | error m => exact ⟨Res.noPanic_ok _, h1.keeps⟩
    | ok f =>
      dsimp only
      have h2 := NFile.fileinfo_tame S.harmless (S.tame (h1.val _ rfl f rfl).1) fuel h1.keeps
      dsimp only at h2
      generalize f.fileinfo fuel d' = q at h2
      obtain ⟨r, l, d2⟩ := q
      cases r with
      | ok u => exact ⟨Res.noPanic_ok _, h2.2⟩
      | err e => exact ⟨Res.noPanic_err _, h2.2⟩
      | panic p => exact absurd rfl (h2.1 p)
      | diverge => exact ⟨Res.noPanic_diverge, h2.2⟩
  | err e => exact ⟨Res.noPanic_err _, h1.keeps⟩
  | panic p => exact h1.not_panic
  | diverge => exact ⟨Res.noPanic_diverge, h1.keeps⟩

theorem Sound.attr (S : Sound n) {s : Shell} (h : Fit n s) (hs : s.stack ≠ []) (withRuns : Bool) (arg : List Char)
    (fuel : Nat) {d : Dev} (hd : d.Has n.img) : Prints n.img (s.attr withRuns arg fuel d) := by
  have h1 := S.parseFileArg h hs arg fuel d hd
  unfold Shell.attr
  generalize s.parseFileArg arg fuel d = q at h1
  obtain ⟨r, d'⟩ := q
  cases r with
  | ok o =>
    cases o with
    | error m => exact ⟨Res.noPanic_ok _, h1.keeps⟩
    | ok f =>
      dsimp only
      have h2 := NFile.attr_tame S.harmless withRuns (S.tame h.volume) (S.tame (h1.val _ rfl f rfl).1) fuel h1.keeps
      dsimp only at h2
      generalize f.attr withRuns s.ntfs fuel d' = q at h2
      obtain ⟨r, l, d2⟩ := q
      cases r with
      | ok u => exact ⟨Res.noPanic_ok _, h2.2⟩
      | err e => exact ⟨Res.noPanic_err _, h2.2⟩
      | panic p => exact absurd rfl (h2.1 p)
      | diverge => exact ⟨Res.noPanic_diverge, h2.2⟩
  | err e => exact ⟨Res.noPanic_err _, h1.keeps⟩
  | panic p => exact h1.not_panic
  | diverge => exact ⟨Res.noPanic_diverge, h1.keeps⟩

/-! ### Sessions -/

/-- There are as many directories on the stack as the path needs. -/
def Deep (s : Shell) : Prop := s.stack ≠ [] ∧ (s.path ≠ [] → s.path.count '\\' + 2 ≤ s.stack.length)

theorem count_cutLast (p : List Char) : ('\\' ∈ p → (cutLast p).count '\\' + 1 = p.count '\\') ∧
    ('\\' ∉ p → cutLast p = []) := by
  refine ⟨fun h => ?_, cutLast_none p⟩
  obtain ⟨a, b, rfl, hb⟩ := exists_last h
  rw [cutLast_append a b hb, List.count_append, List.count_cons_self, List.count_eq_zero_of_not_mem hb]

theorem count_extendPath (p x : List Char) (hx : '\\' ∉ x) :
    (extendPath p x).count '\\' = if p = [] then 0 else p.count '\\' + 1 := by
  unfold extendPath
  rw [List.count_append, List.count_eq_zero_of_not_mem hx]
  split
  · rfl
  · rw [List.count_append]; rfl

theorem Moved.keeps {s : Shell} {r : Option ShellMsg × Shell} (h : Moved n s r) (hf : Fit n s) : Fit n r.2 := by
  obtain ⟨m, s'⟩ := r
  rcases h with h | ⟨f, x, h1, _, h⟩ | ⟨_, h⟩
  · dsimp only at h; subst h; exact hf
  · dsimp only at h
    subst h
    exact ⟨hf.volume, hf.table, fun g hg => by
      rcases List.mem_cons.1 hg with rfl | hg
      · exact h1
      · exact hf.files g hg⟩
  · dsimp only at h
    subst h
    exact ⟨hf.volume, hf.table, fun g hg => hf.files g (List.mem_of_mem_drop hg)⟩

theorem Moved.deep {s : Shell} {r : Option ShellMsg × Shell} (h : Moved n s r) (hs : ¬ Slashed n.ntfs n.img)
    (hd : Deep s) : Deep r.2 := by
  obtain ⟨m, s'⟩ := r
  obtain ⟨h0, h1⟩ := hd
  rcases h with h | ⟨f, x, _, hx, h⟩ | ⟨hp, h⟩
  · dsimp only at h; subst h; exact ⟨h0, h1⟩
  · dsimp only at h
    subst h
    have hn : '\\' ∉ lossy (u16s x.name) := fun hm => hs ⟨x, hx, lossy_slash _ hm⟩
    refine ⟨List.cons_ne_nil _ _, fun _ => ?_⟩
    dsimp only
    rw [count_extendPath _ _ hn, List.length_cons]
    have : 1 ≤ s.stack.length := by
      cases hc : s.stack with
      | nil => exact absurd hc h0
      | cons a l => rw [List.length_cons]; omega
    split
    · omega
    · rename_i hp
      have := h1 hp
      omega
  · dsimp only at h
    subst h
    have h1 := h1 hp
    obtain ⟨c1, c2⟩ := count_cutLast s.path
    refine ⟨fun e => ?_, fun hne => ?_⟩
    · have := congrArg List.length e
      rw [List.length_drop, List.length_nil] at this
      omega
    · dsimp only at hne ⊢
      rw [List.length_drop]
      by_cases hm : '\\' ∈ s.path
      · have := c1 hm; omega
      · exact absurd (c2 hm) hne

theorem shownResult_noPanic {α : Type} {r : Res (Except ShellMsg α)} (h : r.NoPanic) (out : List TermLine) :
    (shownResult r out).1.NoPanic := by
  cases r with
  | ok o => cases o <;> exact Res.noPanic_ok _
  | err e => exact Res.noPanic_ok _
  | panic p => exact absurd rfl (h p)
  | diverge => exact Res.noPanic_diverge

/-- One command. -/
theorem Sound.run (S : Sound n) {s : Session} (h : Fit n s.shell) (hs : s.shell.stack ≠ []) (fuel : Nat) (c : Command)
    (hk : c = .dir → ¬ Keyless n.ntfs n.img) {d : Dev} (hd : d.Has n.img) :
    (s.run fuel c d).1.NoPanic ∧ (s.run fuel c d).2.2.2.Has n.img ∧
      ∃ m, Moved n s.shell (m, (s.run fuel c d).2.2.1.shell) := by
  cases c with
  | attr withRuns arg =>
    have h1 := S.attr h hs withRuns arg fuel hd
    unfold Session.run
    exact ⟨shownResult_noPanic h1.1 _, h1.2, none, .inl rfl⟩
  | cd arg =>
    have h1 := S.cd h hs arg fuel d hd
    unfold Session.run
    dsimp only
    generalize s.shell.cd arg fuel d = q at h1
    obtain ⟨r, d'⟩ := q
    cases r with
    | ok x =>
      obtain ⟨m, sh⟩ := x
      exact ⟨Res.noPanic_ok _, h1.keeps, m, h1.val _ rfl⟩
    | err e => exact ⟨Res.noPanic_ok _, h1.keeps, none, .inl rfl⟩
    | panic p => exact h1.not_panic
    | diverge => exact ⟨Res.noPanic_diverge, h1.keeps, none, .inl rfl⟩
  | dir =>
    have h1 := S.dir (hk rfl) h hs fuel hd
    unfold Session.run
    dsimp only
    generalize s.shell.dir fuel d = q at h1
    obtain ⟨r, l, d'⟩ := q
    cases r with
    | ok x => exact ⟨Res.noPanic_ok _, h1.2, none, .inl rfl⟩
    | err e => exact ⟨Res.noPanic_ok _, h1.2, none, .inl rfl⟩
    | panic p => exact absurd rfl (h1.1 p)
    | diverge => exact ⟨Res.noPanic_diverge, h1.2, none, .inl rfl⟩
  | exit => exact ⟨Res.noPanic_ok _, hd, none, .inl rfl⟩
  | fileinfo arg =>
    have h1 := S.fileinfo h hs arg fuel hd
    unfold Session.run
    exact ⟨shownResult_noPanic h1.1 _, h1.2, none, .inl rfl⟩
  | fsinfo =>
    have h1 := Ntfs.fsinfo_tame S.harmless (S.tame h.volume) hd
    unfold Session.run
    dsimp only
    generalize s.shell.ntfs.fsinfo d = q at h1
    obtain ⟨r, l, d'⟩ := q
    cases r with
    | ok x => exact ⟨Res.noPanic_ok _, h1.2, none, .inl rfl⟩
    | err e => exact ⟨Res.noPanic_ok _, h1.2, none, .inl rfl⟩
    | panic p => exact absurd rfl (h1.1 p)
    | diverge => exact ⟨Res.noPanic_diverge, h1.2, none, .inl rfl⟩
  | get arg =>
    have h1 := S.get h hs arg s.host.blocked fuel hd
    unfold Session.run
    exact ⟨shownResult_noPanic h1.1 _, h1.2, none, .inl rfl⟩
  | help arg => exact ⟨Res.noPanic_ok _, hd, none, .inl rfl⟩
  | nothing => exact ⟨Res.noPanic_ok _, hd, none, .inl rfl⟩
  | invalid command => exact ⟨Res.noPanic_ok _, hd, none, .inl rfl⟩

theorem Sound.loop (S : Sound n) (hk : ¬ Keyless n.ntfs n.img) (hs : ¬ Slashed n.ntfs n.img) (fuel : Nat)
    (lines : List (Option (List Char))) (hl : none ∉ lines) (s : Session) (h : Fit n s.shell) (hp : Deep s.shell)
    (d : Dev) (hd : d.Has n.img) : (Session.loop fuel lines s d).1.NoPanic := by
  induction lines generalizing s d with
  | nil => exact Res.noPanic_ok _
  | cons l rest ih =>
    cases l with
    | none => exact absurd List.mem_cons_self hl
    | some line =>
      unfold Session.loop
      split
      · exact Res.noPanic_ok _
      split
      · exact Res.noPanic_ok _
      obtain ⟨h1, h2, m, h3⟩ := S.run h hp.1 fuel (Command.parse line) (fun _ => hk) hd
      generalize s.run fuel (Command.parse line) d = q at h1 h2 h3
      obtain ⟨r, out, s', d'⟩ := q
      cases r with
      | ok u => exact ih (fun hm => hl (List.mem_cons_of_mem _ hm)) s' (h3.keeps h) (h3.deep hs hp) d' h2
      | err e => exact Res.noPanic_err _
      | panic p => exact absurd rfl (h1 p)
      | diverge => exact Res.noPanic_diverge

end Use

theorem Ntfs.readUpcaseTable_loaded {m m' : Ntfs} {fuel : Nat} {d d' : Dev}
    (h : m.readUpcaseTable fuel d = (.ok m', d')) : m'.upcaseTable ≠ none := by
  unfold Ntfs.readUpcaseTable at h
  obtain ⟨t, _, _, h⟩ := StM.bind_ok_iff.mp h
  cases h
  exact fun e => (nomatch e)

/-- Opening the volume. -/
theorem Use.Sound.start {n : Vol} (S : Use.Sound n) {fuel : Nat} {d d' : Dev} (hn : Ntfs.new d = (.ok n.ntfs, d'))
    (hd' : d'.img = n.img) : Out (Dev.Has n.img) (fun s => Use.Fit n s ∧ Use.Deep s)
      (Shell.start fuel d) := by
  unfold Shell.start
  rw [StM.bind_of_ok hn]
  have key : StM.Tame (Dev.Has n.img) (do
      let ntfs ← n.ntfs.readUpcaseTable fuel
      let root ← ntfs.rootDirectory
      pure { stack := [root], path := [], ntfs := ntfs } : StM Dev Shell) fun s => Use.Fit n s ∧ Use.Deep s := by
    have h1 := Ntfs.readUpcaseTable_tame S.harmless (S.tame .volume) fuel
    refine .bind (Q := fun m => Use.Gets n (.volume m) ∧ m.upcaseTable ≠ none) (fun d hd => ?_) fun m hm =>
      .bind (S.file hm.1 5) fun f hf => .pure ⟨⟨hm.1, hm.2, fun g hg => ?_⟩, List.cons_ne_nil _ _, fun h => absurd rfl h⟩
    · refine ⟨(h1 d hd).noPanic, (h1 d hd).keeps, fun m e => ⟨.call .volume (.readUpcaseTable fuel hd) ?_,
        Ntfs.readUpcaseTable_loaded (d' := (n.ntfs.readUpcaseTable fuel d).2) (Prod.ext e rfl)⟩⟩
      rw [e]
      exact List.mem_singleton.2 rfl
    · rw [List.mem_singleton] at hg
      subst hg
      exact hf.1
  exact key d' hd'

theorem Ntfs.new_keeps (d : Dev) : (Ntfs.new d).2.img = d.img := by
  have h : StM.Tame (Dev.Has d.img) Ntfs.new fun _ => True :=
    .bind (Dev.seekStart_tame _ _) fun _ _ => .bind (Dev.readExact_tame _ _) fun _ _ =>
      .lift ?_ fun _ _ => trivial
  · exact (h d rfl).keeps
  · exact (boot_safe _).noPanic

/-- On a volume without the malformations of C80 a command panics only if it is `dir` and the volume has an index
entry without a key that is not the last one of its node, as long as there is a current directory. -/
theorem C81_command {n : Ntfs} {img : Bytes} (ht : n.upcaseTable = none) (H : Harmless n img) (hN : Use.NodesOk n img)
    {s : Session} (h : Use.Fit ⟨n, img⟩ s.shell) (hs : s.shell.stack ≠ []) (fuel : Nat) (c : Command) (d : Dev)
    (hd : d.img = img) (p : Panic) (hp : (s.run fuel c d).1 = .panic p) : c = .dir ∧ Keyless n img := by
  have S : Use.Sound ⟨n, img⟩ := ⟨H, hN, ht⟩
  have h1 := fun hk => (S.run h hs fuel c hk hd).1 p hp
  have h2 : c = .dir := Classical.byContradiction fun hc => h1 fun e => absurd e hc
  exact ⟨h2, Classical.byContradiction fun hk => h1 fun _ => hk⟩

/-- If the image holds a volume, and that has none of the malformations of C80, the program panics only if a line that
is not UTF-8 is read, or if the volume has an index entry without a key that is not the last one of its node, or a file
name with a backslash. This holds for every reader over the image and for every host. -/
theorem C81_shell (fuel : Nat) (lines : List (Option (List Char))) (host : Host) (d : Dev)
    (hv : ∀ n d', Ntfs.new d = (.ok n, d') → Harmless n d.img ∧ Use.NodesOk n d.img) (p : Panic)
    (hp : (shellMain fuel lines host d).1 = .panic p) :
    none ∈ lines ∨ ∃ n d', Ntfs.new d = (.ok n, d') ∧ (Keyless n d.img ∨ Slashed n d.img) := by
  cases hn : Ntfs.new d with
  | mk r d' =>
    have hs := C15_no_panic d
    have hi := Ntfs.new_keeps d
    rw [hn] at hs hi
    cases r with
    | panic p => exact hs.elim
    | diverge => exact hs.elim
    | err e =>
      unfold shellMain Shell.start at hp
      rw [StM.bind_of_err hn] at hp
      cases hp
    | ok n =>
      obtain ⟨H, hN⟩ := hv n d' hn
      have S : Use.Sound ⟨n, d.img⟩ := ⟨H, hN, Ntfs.new_upcaseTable hn⟩
      by_cases hl : none ∈ lines
      · exact .inl hl
      refine .inr ⟨n, d', rfl, Classical.byContradiction fun hc => ?_⟩
      have h1 := S.start (fuel := fuel) hn hi
      unfold shellMain at hp
      generalize Shell.start fuel d = q at h1 hp
      obtain ⟨r, d1⟩ := q
      cases r with
      | panic p => exact h1.not_panic
      | err e => cases hp
      | diverge => cases hp
      | ok sh =>
        obtain ⟨hf, hd⟩ := h1.val sh rfl
        exact S.loop (fun h => hc (.inl h)) (fun h => hc (.inr h)) fuel lines hl ⟨sh, host⟩ hf hd d1 h1.keeps p hp

/-- Opening the volume does not panic then. -/
theorem C81_start (fuel : Nat) (d : Dev)
    (hv : ∀ n d', Ntfs.new d = (.ok n, d') → Harmless n d.img ∧ Use.NodesOk n d.img) :
    ∀ p, (Shell.start fuel d).1 ≠ .panic p := by
  cases hn : Ntfs.new d with
  | mk r d' =>
    have hs := C15_no_panic d
    have hi := Ntfs.new_keeps d
    rw [hn] at hs hi
    cases r with
    | panic p => exact hs.elim
    | diverge => exact hs.elim
    | err e =>
      unfold Shell.start
      rw [StM.bind_of_err hn]
      exact fun p e => (nomatch e)
    | ok n =>
      obtain ⟨H, hN⟩ := hv n d' hn
      exact (Use.Sound.start (n := ⟨n, d.img⟩) ⟨H, hN, Ntfs.new_upcaseTable hn⟩ hn hi).noPanic

/-! ### The reasons are real -/

/-- A line that is not UTF-8 ends the program. -/
example (fuel : Nat) (rest : List (Option (List Char))) (s : Session) (d : Dev) :
    (Session.loop fuel (none :: rest) s d).1 = .panic .unwrap := rfl

/-- If the listing of the current directory reaches an entry without a key, `dir` panics. -/
theorem C81_keyless {s : Shell} {f : NFile} (hl : s.last = .ok f) {fuel : Nat} {d d1 : Dev} {ix : Index}
    (hix : f.directoryIndex fuel d = (.ok ix, d1)) {e : IEntry} {s2 : IndexEntries × Dev}
    (hn : IndexEntries.next ix fuel (IndexEntries.new ix, d1) = (.ok (some e), s2)) (hk : e.keyLength = .ok 0) :
    s.dir fuel d = (.panic .unwrap, [], s2.2) := by
  unfold Shell.dir
  have h1 : (do let f ← StM.lift s.last; f.directoryIndex fuel : StM Dev Index) d = (.ok ix, d1) := by
    rw [StM.bind_apply, StM.lift_apply, hl]
    exact hix
  rw [h1]
  dsimp only
  cases fuel with
  | zero => cases hn
  | succ k =>
    unfold dirLoop
    rw [hn]
    dsimp only
    have : e.fileNameKey = .panic .unwrap := by
      unfold IEntry.fileNameKey IEntry.key
      rw [hk, Res.bind_ok, if_pos rfl]
      rfl
    rw [this]

/-- The root directory of the small volume with the length of the key of its first entry set to zero. -/
def exKeyless : Bytes := exDiskRec5.take 130 ++ [0, 0] ++ exDiskRec5.drop 132

set_option maxRecDepth 20000 in
/-- Its record has none of the malformations, and yet `dir` panics. -/
theorem C81_keyless_negation : recordOk 512 (fun _ => true) (exFixed exKeyless) = true ∧
    (Shell.dir ⟨[⟨exVol (some exTable), ⟨exFixed exKeyless, some 1024⟩, 5⟩], [], exVol (some exTable)⟩ 20
      ⟨[], 0, []⟩).1 = .panic .unwrap := by
  refine ⟨by decide +kernel, ?_⟩
  decide +kernel

/-- The small volume meets the hypotheses, on every device. It has a name with a backslash, and `C64_panic_negation`
shows that this can crash the shell. -/
theorem exDisk_hyps (d : Dev) (hd : d.Ok exDisk) :
    ∀ n d', Ntfs.new d = (.ok n, d') → Harmless n d.img ∧ Use.NodesOk n d.img := by
  intro n d' h
  obtain ⟨d1, h1⟩ := (C15_accept_iff d hd.2 exDiskNtfs).2 ⟨exGeometry, by rw [hd.1]; exact exDisk_boot, rfl⟩
  rw [h1] at h
  cases h
  rw [hd.1]
  exact exDisk_harmless

/-- A session on it is in order to begin with. -/
theorem exDisk_fit : Use.Fit ⟨exDiskNtfs, exDisk⟩ ⟨[exRoot.base], [], exVol (some exTable)⟩ := by
  have hd : (⟨exDisk, 0, []⟩ : Dev).Ok exDisk := ⟨rfl, fun _ h => by cases h⟩
  obtain ⟨d1, h1⟩ := (C15_accept_iff ⟨exDisk, 0, []⟩ hd.2 exDiskNtfs).2 ⟨exGeometry, exDisk_boot, rfl⟩
  obtain ⟨d2, h2, _⟩ := exDisk_start ⟨exDisk, 0, []⟩ hd
  have hi := Ntfs.new_keeps ⟨exDisk, 0, []⟩
  rw [h1] at hi
  have := Use.Sound.start (n := ⟨exDiskNtfs, exDisk⟩) (fuel := 20) ⟨exDisk_harmless.1, exDisk_harmless.2, rfl⟩ h1 hi
  rw [h2] at this
  exact (this.val _ rfl).1

/-- So no command but `dir` panics in its root directory, whatever the reader does. -/
example (host : Host) (fuel : Nat) (c : Command) (hc : c ≠ .dir) (d : Dev) (hd : d.img = exDisk) :
    ∀ p, (Session.run fuel c ⟨⟨[exRoot.base], [], exVol (some exTable)⟩, host⟩ d).1 ≠ .panic p :=
  fun p hp => hc (C81_command (n := exDiskNtfs) rfl exDisk_harmless.1 exDisk_harmless.2 exDisk_fit
    (List.cons_ne_nil _ _) fuel c d hd p hp).1

set_option maxRecDepth 20000 in
/-- The hypotheses of `C81_keyless` are met by the changed root directory. -/
example : ∃ ix d1 e s2, NFile.directoryIndex ⟨exVol (some exTable), ⟨exFixed exKeyless, some 1024⟩, 5⟩ 20 ⟨[], 0, []⟩ =
    (.ok ix, d1) ∧ IndexEntries.next ix 20 (IndexEntries.new ix, d1) = (.ok (some e), s2) ∧ e.keyLength = .ok 0 := by
  have h : (match NFile.directoryIndex ⟨exVol (some exTable), ⟨exFixed exKeyless, some 1024⟩, 5⟩ 20 ⟨[], 0, []⟩ with
      | (.ok ix, d1) =>
        match IndexEntries.next ix 20 (IndexEntries.new ix, d1) with
        | (.ok (some e), _) => decide (e.keyLength = .ok 0)
        | _ => false
      | _ => false) = true := by decide +kernel
  split at h
  · rename_i ix d1 h1
    split at h
    · rename_i e s2 h2
      exact ⟨ix, d1, e, s2, h1, h2, of_decide_eq_true h⟩
    · cases h
  · cases h

end NT
