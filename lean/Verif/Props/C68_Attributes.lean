import Verif.Props.C68_Retry
import Verif.Props.C70_Returns

/-! C68, continued: the attributes of a file, on a device that fails. -/

namespace NT

open Spec

/-! ### What an operation gives on a device that works -/

/-- On every device that holds `img` and does not fail, the operation gives `r` and leaves `s'`. -/
def Spec.Gives {σ α : Type} (img : Bytes) (p : StM (σ × Dev) α) (s : σ) (r : Res α) (s' : σ) : Prop :=
  ∀ e : Dev, e.Ok img → ∃ e', e'.Ok img ∧ p (s, e) = (r, (s', e'))

theorem Dev.ok_fresh (img : Bytes) : (⟨img, 0, []⟩ : Dev).Ok img := ⟨rfl, fun _ h => by cases h⟩

theorem Gives.unique {σ α : Type} {img : Bytes} {p : StM (σ × Dev) α} {s s1 s2 : σ} {r1 r2 : Res α}
    (h1 : Gives img p s r1 s1) (h2 : Gives img p s r2 s2) : r1 = r2 ∧ s1 = s2 := by
  obtain ⟨_, _, g1⟩ := h1 _ (Dev.ok_fresh img)
  obtain ⟨_, _, g2⟩ := h2 _ (Dev.ok_fresh img)
  rw [g1] at g2
  injection g2 with g2 g3
  injection g3 with g3 _
  exact ⟨g2, g3⟩

theorem RepS.gives {σ α : Type} {p : StM (σ × Dev) α} (hp : RepS p) {img : Bytes} (hi : img.length < U64) (s : σ) :
    ∃ r s', Gives img p s r s' := by
  obtain ⟨⟨r, s'⟩, hb⟩ := (hp s).settled img hi
  exact ⟨r, s', fun e he => hb e he⟩

/-! ### The entries that the iterator over attributes passes over -/

theorem Attrs.nextInList_list (fuel : Nat) (l : AttrList) (it : Attrs) (x : Option AttrList) (d : Dev) :
    Attrs.nextInList (fuel + 1) l ({ it with list := x }, d) = Attrs.nextInList (fuel + 1) l (it, d) := by
  unfold Attrs.nextInList
  rfl

theorem Attrs.nextInList_fuel (f1 f2 : Nat) (l : AttrList) (s : Attrs × Dev) (h1 : l.remaining < f1)
    (h2 : l.remaining < f2) : Attrs.nextInList f1 l s = Attrs.nextInList f2 l s := by
  induction f1 generalizing l s f2 with
  | zero => omega
  | succ f1 ih =>
    cases f2 with
    | zero => omega
    | succ f2 =>
      obtain ⟨it, d⟩ := s
      simp only [Attrs.nextInList]
      have hp := fun e l' d' => C24_progress l l' d d' e
      generalize AttrList.next (l, d) = q at hp ⊢
      obtain ⟨x, l', d'⟩ := q
      cases x with
      | ok o =>
        cases o with
        | none => rfl
        | some e =>
          have := hp e l' d' rfl
          dsimp only
          cases e.ty with
          | ok t =>
            dsimp only
            rw [ih f2 l' _ (by omega) (by omega)]
          | _ => rfl
      | _ => rfl

/-- What `next` gives from the list `l` on. -/
def GivesL (img : Bytes) (l : AttrList) (it : Attrs) (r : Res (Option AttrItem)) (it' : Attrs) : Prop :=
  Gives img (Attrs.nextInList (l.remaining + 1) l) it r it'

theorem GivesL.exists {img : Bytes} (hi : img.length < U64) (l : AttrList) (it : Attrs) :
    ∃ r it', GivesL img l it r it' := (Attrs.nextInList_rep _ l).gives hi it

/-- From `l` the iterator gets to `l1`, and all entries between are of the file record itself or to be skipped. -/
inductive Pass (img : Bytes) (num : Nat) (skip : Option (Nat × AttrType)) : AttrList → AttrList → Prop
  | refl (l : AttrList) : Pass img num skip l l
  | step {l l' l1 : AttrList} {e : ListEntry} {t : AttrType} : Gives img AttrList.next l (.ok (some e)) l' →
      e.ty = .ok t → (e.ref.fileRecordNumber = num ∨ skip = some (e.inst, t)) → Pass img num skip l' l1 →
      Pass img num skip l l1

theorem Pass.mono {img : Bytes} {num : Nat} {sk s : Option (Nat × AttrType)} {l l1 : AttrList}
    (h : Pass img num sk l l1) (hs : sk = none ∨ s = sk) : Pass img num s l l1 := by
  induction h with
  | refl l => exact .refl l
  | step h1 h2 h3 _ ih =>
    refine .step h1 h2 ?_ ih
    rcases h3 with h3 | h3
    · exact .inl h3
    · rcases hs with hs | hs
      · rw [hs] at h3; cases h3
      · exact .inr (hs ▸ h3)

theorem Pass.snoc {img : Bytes} {num : Nat} {sk : Option (Nat × AttrType)} {l l1 l2 : AttrList}
    (h : Pass img num sk l l1) {e : ListEntry} {t : AttrType} (h1 : Gives img AttrList.next l1 (.ok (some e)) l2)
    (h2 : e.ty = .ok t) (h3 : e.ref.fileRecordNumber = num ∨ sk = some (e.inst, t)) : Pass img num sk l l2 := by
  induction h with
  | refl l => exact .step h1 h2 h3 (.refl _)
  | step g1 g2 g3 _ ih => exact .step g1 g2 g3 (ih h1)

theorem GivesL.pass {img : Bytes} {l l1 : AttrList} {it it' : Attrs} {r : Res (Option AttrItem)}
    (h : Pass img it.raw.file.number it.skip l l1) (hr : GivesL img l1 it r it') : GivesL img l it r it' := by
  induction h with
  | refl l => exact hr
  | @step l l' l1 e t h1 h2 h3 _ ih =>
    have ih := ih hr
    intro d hd
    obtain ⟨d1, hd1, g1⟩ := h1 d hd
    obtain ⟨d2, hd2, g2⟩ := ih d1 hd1
    have hp := C24_progress _ _ _ _ _ g1
    refine ⟨d2, hd2, ?_⟩
    rw [← g2]
    simp only [Attrs.nextInList, g1, h2]
    have key : Attrs.nextInList l.remaining l' ({ it with list := some l' }, d1) =
        Attrs.nextInList (l'.remaining + 1) l' (it, d1) := by
      rw [Attrs.nextInList_fuel _ (l'.remaining + 1) l' _ (by omega) (by omega), Attrs.nextInList_list]
    by_cases c : e.ref.fileRecordNumber = it.raw.file.number
    · rw [if_pos c]; exact key
    · rw [if_neg c, if_pos (h3.resolve_left c)]; exact key

theorem GivesL.unpass {img : Bytes} (hi : img.length < U64) {l l1 : AttrList} {it it' : Attrs} {r : Res (Option AttrItem)}
    (h : Pass img it.raw.file.number it.skip l l1) (hr : GivesL img l it r it') : GivesL img l1 it r it' := by
  obtain ⟨r2, it2, h2⟩ := GivesL.exists hi l1 it
  obtain ⟨rfl, rfl⟩ := Gives.unique (GivesL.pass h h2) hr
  exact h2

/-- The list has ended or is broken: nothing is shown, whatever is to be skipped. -/
structure Stops (img : Bytes) (l : AttrList) (r : Res (Option AttrItem)) (l2 : AttrList) : Prop where
  nothing : ∀ i, r ≠ .ok (some i)
  gives : ∀ it : Attrs, GivesL img l it r { it with list := some l2 }

/-- The next entry is of another record. -/
structure EntryAt (img : Bytes) (num : Nat) (l : AttrList) (e : ListEntry) (t : AttrType) (l2 : AttrList) : Prop where
  next : Gives img AttrList.next l (.ok (some e)) l2
  ty : e.ty = .ok t
  other : e.ref.fileRecordNumber ≠ num

theorem stops_of {img : Bytes} {l l' : AttrList} {rr : Res (Option ListEntry)} (hg : Gives img AttrList.next l rr l')
    (hn : ∀ e t, rr = .ok (some e) → e.ty ≠ .ok t) :
    ∃ r, Stops img l r l' ∧ ∀ (fuel : Nat) (it : Attrs) (d d' : Dev), AttrList.next (l, d) = (rr, (l', d')) →
      Attrs.nextInList (fuel + 1) l (it, d) = (r, ({ it with list := some l' }, d')) := by
  have main : ∀ r : Res (Option AttrItem), (∀ i, r ≠ .ok (some i)) →
      (∀ (fuel : Nat) (it : Attrs) (d d' : Dev), AttrList.next (l, d) = (rr, (l', d')) →
        Attrs.nextInList (fuel + 1) l (it, d) = (r, ({ it with list := some l' }, d'))) →
      ∃ r, Stops img l r l' ∧ ∀ (fuel : Nat) (it : Attrs) (d d' : Dev), AttrList.next (l, d) = (rr, (l', d')) →
        Attrs.nextInList (fuel + 1) l (it, d) = (r, ({ it with list := some l' }, d')) :=
    fun r h1 h2 => ⟨r, ⟨h1, fun it d hd => by
      obtain ⟨d1, g1, g2⟩ := hg d hd
      exact ⟨d1, g1, h2 _ it d d1 g2⟩⟩, h2⟩
  cases rr with
  | ok o =>
    cases o with
    | none =>
      exact main (.ok none) (fun i h => by cases h) fun fuel it d d' h => by simp only [Attrs.nextInList, h]
    | some e =>
      cases ht : e.ty with
      | ok t => exact absurd ht (hn e t rfl)
      | err x => exact main (.err x) (fun i h => by cases h) fun fuel it d d' h => by simp only [Attrs.nextInList, h, ht]
      | panic x => exact main (.panic x) (fun i h => by cases h) fun fuel it d d' h => by simp only [Attrs.nextInList, h, ht]
      | diverge => exact main .diverge (fun i h => by cases h) fun fuel it d d' h => by simp only [Attrs.nextInList, h, ht]
  | err x => exact main (.err x) (fun i h => by cases h) fun fuel it d d' h => by simp only [Attrs.nextInList, h]
  | panic x => exact main (.panic x) (fun i h => by cases h) fun fuel it d d' h => by simp only [Attrs.nextInList, h]
  | diverge => exact main .diverge (fun i h => by cases h) fun fuel it d d' h => by simp only [Attrs.nextInList, h]

theorem list_stop {img : Bytes} (hi : img.length < U64) (num : Nat) (skip : Option (Nat × AttrType)) (l : AttrList) :
    ∃ l1, Pass img num skip l l1 ∧
      ((∃ r l2, Stops img l1 r l2) ∨ ∃ e t l2, EntryAt img num l1 e t l2 ∧ skip ≠ some (e.inst, t)) := by
  induction hn : l.remaining using Nat.strongRecOn generalizing l with
  | _ n ih =>
  obtain ⟨rr, l', hg⟩ := AttrList.next_rep.gives hi l
  by_cases h : ∃ e t, rr = .ok (some e) ∧ e.ty = .ok t
  · obtain ⟨e, t, rfl, ht⟩ := h
    by_cases c : e.ref.fileRecordNumber = num ∨ skip = some (e.inst, t)
    · obtain ⟨d1, h1, h2⟩ := hg _ (Dev.ok_fresh img)
      have hp := C24_progress _ _ _ _ _ h2
      obtain ⟨l1, g1, g2⟩ := ih l'.remaining (by omega) l' rfl
      exact ⟨l1, .step hg ht c g1, g2⟩
    · exact ⟨l, .refl l, .inr ⟨e, t, l', ⟨hg, ht, fun h => c (.inl h)⟩, fun h => c (.inr h)⟩⟩
  · obtain ⟨r, h1, _⟩ := stops_of hg fun e t h1 h2 => h ⟨e, t, h1, h2⟩
    exact ⟨l, .refl l, .inl ⟨r, l', h1⟩⟩

/-! ### The item of an entry -/

/-- The item is an attribute of type `t` with the instance number `n`, in a record of its own. -/
def Spec.PartOf (i : AttrItem) (n : Nat) (t : AttrType) : Prop :=
  ∃ f, i.valueFile = some f ∧ field f.recordData i.offset 4 = t.code ∧ field f.recordData (i.offset + 14) 2 = n

theorem Attrs.itemOf_part {it : Attrs} {l : AttrList} {e : ListEntry} {t : AttrType} {d d' : Dev} {i : AttrItem}
    {sk : Option (Nat × AttrType)} (ht : e.ty = .ok t) (h : it.itemOf l e t d = (.ok (i, sk), d')) :
    PartOf i e.inst t ∧ (sk = none ∨ sk = some (e.inst, t)) := by
  unfold Attrs.itemOf at h
  rw [StM.bind_ok_iff] at h
  obtain ⟨f, d1, _, h⟩ := h
  rw [StM.bind_ok_iff] at h
  obtain ⟨a, d2, ha, h⟩ := h
  rw [StM.lift_apply] at ha
  injection ha with ha _
  rw [StM.bind_ok_iff] at h
  obtain ⟨b, d3, _, h⟩ := h
  unfold ListEntry.toAttribute at ha
  split at ha
  · rw [ht, Res.bind_ok] at ha
    unfold NFile.findResidentAttribute at ha
    obtain ⟨raw, hraw, ha⟩ := Res.bind_eq_ok.1 ha
    have hrf : raw.file = f := by
      unfold NFile.attributesRaw at hraw
      simp only [Res.bind_eq_ok] at hraw
      obtain ⟨_, _, _, _, hraw⟩ := hraw
      cases hraw
      rfl
    obtain ⟨rf, rs, re⟩ := raw
    dsimp only at hrf
    subst hrf
    rcases AttrsRaw.find_spec rf re t none (some e.inst) (rf.recordData.length + 1) rs (by omega) with
      ⟨_, off, _, _, g, w, _⟩ | ⟨_, _, _, _, g, _⟩ | ⟨_, _, _, _, _, g, _⟩ <;> rw [g] at ha <;> cases ha
    have w1 := w.ty
    have w2 := w.inst _ rfl
    split at h
    · cases h; exact ⟨⟨rf, rfl, w1, w2⟩, .inl rfl⟩
    · cases h; exact ⟨⟨rf, rfl, w1, w2⟩, .inr rfl⟩
  · cases ha

/-- What the iterator does with an entry that is not passed over: the result, and what is to be skipped afterwards. -/
theorem EntryAt.shows {img : Bytes} (hi : img.length < U64) {l l2 : AttrList} {e : ListEntry} {t : AttrType} {raw : AttrsRaw}
    (h : EntryAt img raw.file.number l e t l2) :
    ∃ r sk, r ≠ .ok none ∧ ((∃ i, r = .ok (some i) ∧ PartOf i e.inst t ∧ (sk = none ∨ sk = some (e.inst, t))) ∨
        ((∀ o, r ≠ .ok o) ∧ sk = none)) ∧
      (∀ it : Attrs, it.raw = raw → it.skip ≠ some (e.inst, t) →
        GivesL img l it r { it with list := some l2, skip := sk }) ∧
      ∀ it : Attrs, it.raw = raw → ∀ d : Dev, d.Calm → d.img = img →
        (∃ d', d.Later d' ∧ ∀ (fuel : Nat) (d0 : Dev), AttrList.next (l, d0) = (.ok (some e), (l2, d)) →
          it.skip ≠ some (e.inst, t) → Attrs.nextInList (fuel + 1) l (it, d0) = (r, ({ it with list := some l2, skip := sk }, d'))) ∨
        ∃ x d', d.Later d' ∧ .fail x ∈ d.sched ∧ ∀ (fuel : Nat) (d0 : Dev), AttrList.next (l, d0) = (.ok (some e), (l2, d)) →
          it.skip ≠ some (e.inst, t) →
          Attrs.nextInList (fuel + 1) l (it, d0) = (.err (.io x), ({ it with list := some l2, skip := none }, d')) := by
  have hraw : ∀ it : Attrs, it.raw = raw → ∀ d, it.itemOf l e t d = Attrs.itemOf ⟨raw, none, none⟩ l e t d := by
    intro it hit d; unfold Attrs.itemOf; rw [hit]
  obtain ⟨y, hy⟩ := (Attrs.itemOf_rep ⟨raw, none, none⟩ l e t).settled img hi
  obtain ⟨r, sk, hrs⟩ : ∃ (r : Res (Option AttrItem)) (sk : Option (Nat × AttrType)), (r, sk) =
      (match y with
      | .ok (item, skip) => (.ok (some item), skip)
      | .err x => (.err x, none)
      | .panic p => (.panic p, none)
      | .diverge => (.diverge, none)) := ⟨_, _, rfl⟩
  have run : ∀ (it : Attrs), it.raw = raw → it.skip ≠ some (e.inst, t) → ∀ fuel d0 d1 d2,
      AttrList.next (l, d0) = (.ok (some e), (l2, d1)) → Attrs.itemOf ⟨raw, none, none⟩ l e t d1 = (y, d2) →
      Attrs.nextInList (fuel + 1) l (it, d0) = (r, ({ it with list := some l2, skip := sk }, d2)) := by
    intro it hit hsk fuel d0 d1 d2 h1 h2
    have hne : e.ref.fileRecordNumber ≠ it.raw.file.number := by rw [hit]; exact h.other
    simp only [Attrs.nextInList, h1, h.ty, if_neg hne, if_neg hsk, hraw it hit, h2]
    cases y with
    | ok p => obtain ⟨item, skip⟩ := p; cases hrs; rfl
    | _ => cases hrs; rfl
  refine ⟨r, sk, ?_, ?_, ?_, ?_⟩
  · cases y with
    | ok p => obtain ⟨item, skip⟩ := p; cases hrs; intro h; cases h
    | _ => cases hrs; intro h; cases h
  · cases y with
    | ok p =>
      obtain ⟨item, skip⟩ := p
      cases hrs
      obtain ⟨d1, _, g⟩ := hy _ (Dev.ok_fresh img)
      obtain ⟨g1, g2⟩ := Attrs.itemOf_part h.ty g
      exact .inl ⟨item, rfl, g1, g2⟩
    | _ => cases hrs; exact .inr ⟨fun o h => by (first | cases h), rfl⟩
  · intro it hit hsk d hd
    obtain ⟨d1, g1, g2⟩ := h.next d hd
    obtain ⟨d2, k1, k2⟩ := hy d1 g1
    exact ⟨d2, k1, run it hit hsk _ _ _ _ g2 k2⟩
  · intro it hit d hd hdi
    have later := (Attrs.itemOf_rep ⟨raw, none, none⟩ l e t).later hd
    rcases Faithful.result (fun hF => Attrs.itemOf_faithful hF ⟨raw, none, none⟩ l e t) hd with g | ⟨x, gx, g⟩
    · left
      obtain ⟨d2, k1, k2⟩ := hy (d.heal 0) (hdi ▸ d.heal_ok 0)
      rw [k2] at g
      refine ⟨_, later, fun fuel d0 h1 hsk => run it hit hsk _ _ _ _ h1 (Prod.ext g rfl)⟩
    · right
      refine ⟨x, _, later, gx, fun fuel d0 h1 hsk => ?_⟩
      have hne : e.ref.fileRecordNumber ≠ it.raw.file.number := by rw [hit]; exact h.other
      simp only [Attrs.nextInList, h1, h.ty, if_neg hne, if_neg hsk, hraw it hit]
      generalize Attrs.itemOf ⟨raw, none, none⟩ l e t d = q at g ⊢
      obtain ⟨y', d'⟩ := q
      dsimp only at g
      rw [g]

/-! ### One call -/

/-- What the lost result `r` was, and what would have been skipped after it. -/
def LostIs (r : Res (Option AttrItem)) (sk : Option (Nat × AttrType)) : Prop :=
  (∃ i n t, r = .ok (some i) ∧ PartOf i n t ∧ (sk = none ∨ sk = some (n, t))) ∨ ((∀ o, r ≠ .ok o) ∧ sk = none)

theorem GivesL.list {img : Bytes} {l : AttrList} {it it' : Attrs} {r : Res (Option AttrItem)} {x : Option AttrList} :
    GivesL img l { it with list := x } r it' ↔ GivesL img l it r it' := by
  unfold GivesL Gives
  simp only [Attrs.nextInList_list]

theorem Attrs.nextInList_outcome (fuel : Nat) (l : AttrList) (it : Attrs) (d : Dev) (hf : l.remaining < fuel)
    (hd : d.Calm) (hi : d.img.length < U64) :
    ∃ d', d.Later d' ∧
      ((∃ x l1, .fail x ∈ d.sched ∧ Pass d.img it.raw.file.number it.skip l l1 ∧
        Attrs.nextInList fuel l (it, d) = (.err (.io x), ({ it with list := some l1 }, d'))) ∨
      ∃ r it', GivesL d.img l it r it' ∧ it'.raw = it.raw ∧
        (r = .ok none → it'.skip = it.skip ∧ ∀ s, (it.skip = none ∨ s = it.skip) →
          GivesL d.img l { it with skip := s } (.ok none) { it' with skip := s }) ∧
        (Attrs.nextInList fuel l (it, d) = (r, (it', d')) ∨
          ∃ x, .fail x ∈ d.sched ∧ Attrs.nextInList fuel l (it, d) = (.err (.io x), ({ it' with skip := none }, d')) ∧
            r ≠ .ok none ∧ LostIs r it'.skip)) := by
  induction fuel generalizing l it d with
  | zero => omega
  | succ fuel ih =>
    obtain ⟨rr, l', d1, _, hl1, hg, hn⟩ := AttrList.next_retryable l trivial d hd hi
    have hg : Gives d.img AttrList.next l rr l' := hg
    rcases hn with hn | ⟨x, hx, hn⟩
    · by_cases h : ∃ e t, rr = .ok (some e) ∧ e.ty = .ok t
      · obtain ⟨e, t, rfl, ht⟩ := h
        by_cases c : e.ref.fileRecordNumber = it.raw.file.number ∨ it.skip = some (e.inst, t)
        · have hp := C24_progress _ _ _ _ _ hn
          have hpass : Pass d.img it.raw.file.number it.skip l l' := .step hg ht c (.refl _)
          have hrun : Attrs.nextInList (fuel + 1) l (it, d) = Attrs.nextInList fuel l' ({ it with list := some l' }, d1) := by
            simp only [Attrs.nextInList, hn, ht]
            by_cases c' : e.ref.fileRecordNumber = it.raw.file.number
            · rw [if_pos c']
            · rw [if_neg c', if_pos (c.resolve_left c')]
          rw [hrun]
          obtain ⟨d', g1, g2⟩ := ih l' { it with list := some l' } d1 (by omega) (hl1.calm hd) (by rw [hl1.img]; exact hi)
          rw [hl1.img] at g2
          refine ⟨d', hl1.trans g1, ?_⟩
          rcases g2 with ⟨x, l1, k1, k2, k3⟩ | ⟨r, it', k1, k2, k3, k4⟩
          · exact .inl ⟨x, l1, hl1.fails k1, .step hg ht c k2, k3⟩
          · refine .inr ⟨r, it', GivesL.pass hpass (GivesL.list.1 k1), k2, fun hr => ?_, ?_⟩
            · obtain ⟨j1, j2⟩ := k3 hr
              refine ⟨j1, fun s hs => ?_⟩
              exact GivesL.pass (it := { it with skip := s }) (hpass.mono hs)
                (GivesL.list (it := { it with skip := s }).1 (j2 s hs))
            · rcases k4 with k4 | ⟨x, k4, k5⟩
              · exact .inl k4
              · exact .inr ⟨x, hl1.fails k4, k5⟩
        · have he : EntryAt d.img it.raw.file.number l e t l' := ⟨hg, ht, fun h => c (.inl h)⟩
          have hs : it.skip ≠ some (e.inst, t) := fun h => c (.inr h)
          obtain ⟨r, sk, j1, j2, j3, j4⟩ := he.shows hi
          have jr : LostIs r sk := by
            rcases j2 with ⟨i, a, b, c⟩ | j2
            · exact .inl ⟨i, _, _, a, b, c⟩
            · exact .inr j2
          rcases j4 it rfl d1 (hl1.calm hd) hl1.img with ⟨d', k1, k2⟩ | ⟨x, d', k1, k2, k3⟩
          · exact ⟨d', hl1.trans k1, .inr ⟨r, _, j3 it rfl hs, rfl, fun h => absurd h j1, .inl (k2 fuel d hn hs)⟩⟩
          · exact ⟨d', hl1.trans k1, .inr ⟨r, _, j3 it rfl hs, rfl, fun h => absurd h j1,
              .inr ⟨x, hl1.fails k2, k3 fuel d hn hs, j1, jr⟩⟩⟩
      · obtain ⟨r, h1, h2⟩ := stops_of hg fun e t h1 h2 => h ⟨e, t, h1, h2⟩
        exact ⟨d1, hl1, .inr ⟨r, _, h1.gives it, rfl, fun hr => ⟨rfl, fun s _ => hr ▸ h1.gives { it with skip := s }⟩,
          .inl (h2 fuel it d d1 hn)⟩⟩
    · refine ⟨d1, hl1, .inl ⟨x, l, hx, .refl l, ?_⟩⟩
      simp only [Attrs.nextInList, hn]

/-! ### Behind the list: the attributes of the record itself -/

theorem Attrs.nextInList_raw (fuel : Nat) (l : AttrList) (it : Attrs) (d : Dev) :
    (Attrs.nextInList fuel l (it, d)).2.1.raw = it.raw := by
  induction fuel generalizing l it d with
  | zero => rfl
  | succ fuel ih =>
    unfold Attrs.nextInList
    dsimp only
    generalize AttrList.next (l, d) = q
    obtain ⟨x, l', d'⟩ := q
    cases x with
    | ok o =>
      cases o with
      | none => rfl
      | some e =>
        dsimp only
        cases e.ty with
        | ok t =>
          dsimp only
          by_cases c1 : e.ref.fileRecordNumber = it.raw.file.number
          · rw [if_pos c1]; exact ih _ _ _
          rw [if_neg c1]
          by_cases c2 : it.skip = some (e.inst, t)
          · rw [if_pos c2]; exact ih _ _ _
          rw [if_neg c2]
          generalize it.itemOf l e t d' = q
          obtain ⟨y, d2⟩ := q
          cases y <;> rfl
        | _ => rfl
    | _ => rfl

theorem Attrs.nextFromList_raw (it : Attrs) (d : Dev) : (Attrs.nextFromList (it, d)).2.1.raw = it.raw := by
  unfold Attrs.nextFromList
  dsimp only
  cases it.list with
  | none => rfl
  | some l => exact Attrs.nextInList_raw _ _ _ _

/-- What is left of the record. -/
def AttrsRaw.left (raw : AttrsRaw) : Nat := raw.file.recordData.length - raw.start

/-- What `next` does with the next attribute of the record itself. -/
theorem AttrsRaw.step_cases (raw : AttrsRaw) :
    (∃ r raw', (∀ i, r = .ok (some i) → i.valueFile = none) ∧
      ∀ (fuel : Nat) (it it1 : Attrs) (d d1 : Dev), it1.raw = raw → Attrs.nextFromList (it, d) = (.ok none, (it1, d1)) →
        Attrs.nextLoop (fuel + 1) (it, d) = (r, ({ it1 with raw := raw' }, d1))) ∨
    ∃ l raw', raw'.left < raw.left ∧ raw'.file = raw.file ∧
      ∀ (fuel : Nat) (it it1 : Attrs) (d d1 : Dev), it1.raw = raw → Attrs.nextFromList (it, d) = (.ok none, (it1, d1)) →
        Attrs.nextLoop (fuel + 1) (it, d) = Attrs.nextLoop fuel ({ it1 with raw := raw', list := some l }, d1) := by
  rcases raw.next_cases with ⟨_, e⟩ | ⟨len, ha, e⟩ | ⟨_, _, e⟩
  · refine .inl ⟨.ok none, raw, fun i h => by (cases h), fun fuel it it1 d d1 h1 h2 => ?_⟩
    simp only [Attrs.nextLoop, StM.bind_apply, h2, h1, e]
  · have hlen := ha.header
    have hin := ha.inside
    generalize hat : Attr.mk raw.file raw.start none = a at e
    have hal : a.list = none := by rw [← hat]
    obtain ⟨x, hx⟩ : ∃ x, ∀ d, a.attributeList d = (x, d) := by
      refine ⟨(a.attributeList ⟨[], 0, []⟩).1, fun d => ?_⟩
      unfold Attr.attributeList Attr.value
      rw [hal]
      simp only [StM.bind_apply, StM.lift_apply]
      cases a.ensureTy .attributeList with
      | ok u =>
        dsimp only
        cases a.simpleValue with
        | ok v => rfl
        | _ => rfl
      | _ => rfl
    have plain : ∀ t, a.ty = .ok t → t ≠ .attributeList → ∀ (fuel : Nat) (it it1 : Attrs) (d d1 : Dev), it1.raw = raw →
        Attrs.nextFromList (it, d) = (.ok none, (it1, d1)) →
        Attrs.nextLoop (fuel + 1) (it, d) = (.ok (some { file := raw.file, valueFile := none, offset := a.offset, list := none }),
          ({ it1 with raw := { raw with start := raw.start + len } }, d1)) := by
      intro t ht hne fuel it it1 d d1 h1 h2
      simp only [Attrs.nextLoop, StM.bind_apply, h2, h1, e, ht]
      cases t <;> first | exact absurd rfl hne | rfl
    cases ht : a.ty with
    | ok t =>
      by_cases hl : t = .attributeList
      · subst hl
        cases x with
        | ok l =>
          refine .inr ⟨l, { raw with start := raw.start + len }, ?_, rfl, fun fuel it it1 d d1 h1 h2 => ?_⟩
          · unfold AttrsRaw.left
            dsimp only
            omega
          · simp only [Attrs.nextLoop, StM.bind_apply, h2, h1, e, ht, hx]
        | err x =>
          refine .inl ⟨.err x, { raw with start := raw.start + len }, fun i h => by (cases h), fun fuel it it1 d d1 h1 h2 => ?_⟩
          simp only [Attrs.nextLoop, StM.bind_apply, h2, h1, e, ht, hx]
        | panic x =>
          refine .inl ⟨.panic x, { raw with start := raw.start + len }, fun i h => by (cases h), fun fuel it it1 d d1 h1 h2 => ?_⟩
          simp only [Attrs.nextLoop, StM.bind_apply, h2, h1, e, ht, hx]
        | diverge =>
          refine .inl ⟨.diverge, { raw with start := raw.start + len }, fun i h => by (cases h), fun fuel it it1 d d1 h1 h2 => ?_⟩
          simp only [Attrs.nextLoop, StM.bind_apply, h2, h1, e, ht, hx]
      · exact .inl ⟨_, _, fun i h => by cases h; rfl, plain t ht hl⟩
    | err x =>
      refine .inl ⟨.ok (some { file := raw.file, valueFile := none, offset := a.offset, list := none }),
        { raw with start := raw.start + len }, fun i h => by cases h; rfl, fun fuel it it1 d d1 h1 h2 => ?_⟩
      simp only [Attrs.nextLoop, StM.bind_apply, h2, h1, e, ht]
    | panic x =>
      refine .inl ⟨.panic x, { raw with start := raw.start + len }, fun i h => by (cases h), fun fuel it it1 d d1 h1 h2 => ?_⟩
      simp only [Attrs.nextLoop, StM.bind_apply, h2, h1, e, ht]
    | diverge =>
      refine .inl ⟨.diverge, { raw with start := raw.start + len }, fun i h => by (cases h), fun fuel it it1 d d1 h1 h2 => ?_⟩
      simp only [Attrs.nextLoop, StM.bind_apply, h2, h1, e, ht]
  · refine .inl ⟨.err (lengthError (raw.file.position.add raw.start) raw.file.recordData raw.start), raw,
      fun i h => by (cases h), fun fuel it it1 d d1 h1 h2 => ?_⟩
    simp only [Attrs.nextLoop, StM.bind_apply, h2, h1, e]

theorem Attrs.nextLoop_shown (fuel : Nat) {s s' : Attrs × Dev} {r : Res (Option AttrItem)}
    (h : Attrs.nextFromList s = (r, s')) (hr : r ≠ .ok none) : Attrs.nextLoop (fuel + 1) s = (r, s') := by
  simp only [Attrs.nextLoop, StM.bind_apply, h]
  cases r with
  | ok o =>
    cases o with
    | none => exact absurd rfl hr
    | some i => rfl
  | _ => rfl

theorem Attrs.nextLoop_fuel (f1 f2 : Nat) (it : Attrs) (d : Dev) (h1 : it.raw.left < f1) (h2 : it.raw.left < f2) :
    Attrs.nextLoop f1 (it, d) = Attrs.nextLoop f2 (it, d) := by
  induction f1 generalizing it d f2 with
  | zero => omega
  | succ f1 ih =>
    cases f2 with
    | zero => omega
    | succ f2 =>
      have hraw := Attrs.nextFromList_raw it d
      cases h : Attrs.nextFromList (it, d) with
      | mk r s =>
        obtain ⟨it1, d1⟩ := s
        by_cases hr : r = .ok none
        · subst hr
          rw [h] at hraw
          rcases it.raw.step_cases with ⟨r, raw', _, g⟩ | ⟨l, raw', g1, _, g⟩
          · rw [g f1 it it1 d d1 hraw h, g f2 it it1 d d1 hraw h]
          · rw [g f1 it it1 d d1 hraw h, g f2 it it1 d d1 hraw h]
            exact ih f2 _ _ (by dsimp only; omega) (by dsimp only; omega)
        · rw [Attrs.nextLoop_shown _ h hr, Attrs.nextLoop_shown _ h hr]

/-- The same for `next`. -/
theorem AttrsRaw.next_step (raw : AttrsRaw) :
    (∃ r raw', (∀ i, r = .ok (some i) → i.valueFile = none) ∧
      ∀ (it it1 : Attrs) (d d1 : Dev), it1.raw = raw → Attrs.nextFromList (it, d) = (.ok none, (it1, d1)) →
        Attrs.next (it, d) = (r, ({ it1 with raw := raw' }, d1))) ∨
    ∃ l raw', raw'.left < raw.left ∧
      ∀ (it it1 : Attrs) (d d1 : Dev), it1.raw = raw → Attrs.nextFromList (it, d) = (.ok none, (it1, d1)) →
        Attrs.next (it, d) = Attrs.next ({ it1 with raw := raw', list := some l }, d1) := by
  rcases raw.step_cases with ⟨r, raw', h, g⟩ | ⟨l, raw', h, hf, g⟩
  · exact .inl ⟨r, raw', h, fun it it1 d d1 => g _ it it1 d d1⟩
  · refine .inr ⟨l, raw', h, fun it it1 d d1 h1 h2 => ?_⟩
    have hraw := Attrs.nextFromList_raw it d
    rw [h2] at hraw
    have hraw : it1.raw = it.raw := hraw
    unfold Attrs.next
    dsimp only
    rw [g _ it it1 d d1 h1 h2]
    have hle : raw.left ≤ raw.file.recordData.length := Nat.sub_le _ _
    apply Attrs.nextLoop_fuel
    · dsimp only; rw [← hraw, h1]; omega
    · dsimp only; rw [hf]; omega

theorem Attrs.next_shown {s s' : Attrs × Dev} {r : Res (Option AttrItem)} (h : Attrs.nextFromList s = (r, s'))
    (hr : r ≠ .ok none) : Attrs.next s = (r, s') := by
  obtain ⟨it, d⟩ := s
  exact Attrs.nextLoop_shown _ h hr

/-! ### A whole call -/

theorem Attrs.nextFromList_gives {img : Bytes} {it it' : Attrs} {l : AttrList} {r : Res (Option AttrItem)}
    (hl : it.list = some l) (h : GivesL img l it r it') : Gives img Attrs.nextFromList it r it' := by
  intro d hd
  obtain ⟨d', h1, h2⟩ := h d hd
  refine ⟨d', h1, ?_⟩
  rw [← h2]
  unfold Attrs.nextFromList
  dsimp only
  rw [hl]

theorem Attrs.nextFromList_nothing {it : Attrs} (hl : it.list = none) (d : Dev) :
    Attrs.nextFromList (it, d) = (.ok none, (it, d)) := by
  unfold Attrs.nextFromList
  dsimp only
  rw [hl]

theorem Attrs.next_gives_shown {img : Bytes} {it it' : Attrs} {r : Res (Option AttrItem)}
    (h : Gives img Attrs.nextFromList it r it') (hr : r ≠ .ok none) : Gives img Attrs.next it r it' := by
  intro d hd
  obtain ⟨d', h1, h2⟩ := h d hd
  exact ⟨d', h1, Attrs.next_shown h2 hr⟩

/-- Two iterators whose lists give the same go on in the same way. -/
theorem Attrs.next_same {img : Bytes} (hi : img.length < U64) {a b it1 it' : Attrs} {r1 r : Res (Option AttrItem)}
    (ha : Gives img Attrs.nextFromList a r1 it1) (hb : Gives img Attrs.nextFromList b r1 it1)
    (h : Gives img Attrs.next a r it') : Gives img Attrs.next b r it' := by
  by_cases hr : r1 = .ok none
  · subst hr
    rcases it1.raw.next_step with ⟨r2, raw', _, g⟩ | ⟨l, raw', _, g⟩
    · have ga : Gives img Attrs.next a r2 { it1 with raw := raw' } := by
        intro d hd
        obtain ⟨d', h1, h2⟩ := ha d hd
        exact ⟨d', h1, g _ _ _ _ rfl h2⟩
      obtain ⟨rfl, rfl⟩ := Gives.unique ga h
      intro d hd
      obtain ⟨d', h1, h2⟩ := hb d hd
      exact ⟨d', h1, g _ _ _ _ rfl h2⟩
    · obtain ⟨r2, it2, k⟩ := Attrs.next_rep.gives hi { it1 with raw := raw', list := some l }
      have go : ∀ c, Gives img Attrs.nextFromList c (.ok none) it1 → Gives img Attrs.next c r2 it2 := by
        intro c hc d hd
        obtain ⟨d', h1, h2⟩ := hc d hd
        obtain ⟨d2, h3, h4⟩ := k d' h1
        exact ⟨d2, h3, by rw [g _ _ _ _ rfl h2, h4]⟩
      obtain ⟨rfl, rfl⟩ := Gives.unique (go a ha) h
      exact go b hb
  · obtain ⟨rfl, rfl⟩ := Gives.unique (Attrs.next_gives_shown ha hr) h
    exact Attrs.next_gives_shown hb hr

/-- Nothing is lost between `a` and `b`: whatever is still to be skipped, they give the same. -/
structure Kept (img : Bytes) (a b : Attrs) : Prop where
  skip : b.skip = a.skip
  same : ∀ s, (a.skip = none ∨ s = a.skip) → ∀ r it', Gives img Attrs.next { a with skip := s } r it' →
    Gives img Attrs.next { b with skip := s } r it'

theorem Attrs.next_outcome (it : Attrs) (d : Dev) (hd : d.Calm) (hi : d.img.length < U64) :
    ∃ r it' d', Gives d.img Attrs.next it r it' ∧ d.Later d' ∧
      (Attrs.next (it, d) = (r, (it', d')) ∨
        ∃ x, .fail x ∈ d.sched ∧
          ((∃ it1, Attrs.next (it, d) = (.err (.io x), (it1, d')) ∧ Kept d.img it it1) ∨
          (Attrs.next (it, d) = (.err (.io x), ({ it' with skip := none }, d')) ∧ r ≠ .ok none ∧ LostIs r it'.skip))) := by
  induction hn : it.raw.left using Nat.strongRecOn generalizing it d with
  | _ n ih =>
  -- behind the list
  have behind : ∀ it1 d1, d.Later d1 → it1.raw = it.raw → it1.skip = it.skip →
      (∀ s, (it.skip = none ∨ s = it.skip) →
        Gives d.img Attrs.nextFromList { it with skip := s } (.ok none) { it1 with skip := s }) →
      Attrs.nextFromList (it, d) = (.ok none, (it1, d1)) → ∃ r it' d', Gives d.img Attrs.next it r it' ∧ d.Later d' ∧
      (Attrs.next (it, d) = (r, (it', d')) ∨
        ∃ x, .fail x ∈ d.sched ∧
          ((∃ it1, Attrs.next (it, d) = (.err (.io x), (it1, d')) ∧ Kept d.img it it1) ∨
          (Attrs.next (it, d) = (.err (.io x), ({ it' with skip := none }, d')) ∧ r ≠ .ok none ∧ LostIs r it'.skip))) := by
    intro it1 d1 hl1 hraw hskip hg hrun
    have hg0 : Gives d.img Attrs.nextFromList it (.ok none) it1 := by
      have := hg it.skip (.inr rfl)
      rw [← hskip] at this
      rw [hskip] at this
      have e1 : ({ it with skip := it.skip } : Attrs) = it := rfl
      have e2 : ({ it1 with skip := it.skip } : Attrs) = it1 := by rw [← hskip]
      rw [e1, e2] at this
      exact this
    rcases it1.raw.next_step with ⟨r2, raw', _, g⟩ | ⟨l, raw', hlt, g⟩
    · refine ⟨r2, { it1 with raw := raw' }, d1, fun e he => ?_, hl1, .inl (g _ _ _ _ rfl hrun)⟩
      obtain ⟨e', h1, h2⟩ := hg0 e he
      exact ⟨e', h1, g _ _ _ _ rfl h2⟩
    · obtain ⟨r, it', d', k1, k2, k3⟩ := ih raw'.left (by rw [← hn, ← hraw]; exact hlt)
        { it1 with raw := raw', list := some l } d1 (hl1.calm hd) (by rw [hl1.img]; exact hi) rfl
      rw [hl1.img] at k1 k3
      refine ⟨r, it', d', fun e he => ?_, hl1.trans k2, ?_⟩
      · obtain ⟨e', h1, h2⟩ := hg0 e he
        obtain ⟨e2, h3, h4⟩ := k1 e' h1
        exact ⟨e2, h3, by rw [g _ _ _ _ rfl h2, h4]⟩
      · rw [g _ _ _ _ rfl hrun]
        rcases k3 with k3 | ⟨x, hx, ⟨it2, k3, k4⟩ | k3⟩
        · exact .inl k3
        · refine .inr ⟨x, hl1.fails hx, .inl ⟨it2, k3, ⟨k4.skip.trans hskip, fun s hs r' it2' hgs => ?_⟩⟩⟩
          refine k4.same s (by rw [← hskip] at hs; exact hs) r' it2' fun e he => ?_
          obtain ⟨r3, it3, k⟩ := Attrs.next_rep.gives hi { it1 with raw := raw', list := some l, skip := s }
          have : Gives d.img Attrs.next { it with skip := s } r3 it3 := by
            intro e he
            obtain ⟨e', h1, h2⟩ := hg s hs e he
            obtain ⟨e2, h3, h4⟩ := k e' h1
            exact ⟨e2, h3, by rw [g _ { it1 with skip := s } _ _ rfl h2, h4]⟩
          obtain ⟨rfl, rfl⟩ := Gives.unique this hgs
          exact k e he
        · exact .inr ⟨x, hl1.fails hx, .inr k3⟩
  cases hl : it.list with
  | none =>
    refine behind it d (Dev.Later.refl d) rfl rfl (fun s _ e he => ⟨e, he, ?_⟩) (Attrs.nextFromList_nothing hl d)
    exact Attrs.nextFromList_nothing (it := { it with skip := s }) hl e
  | some l =>
    have hrun : Attrs.nextFromList (it, d) = Attrs.nextInList (l.remaining + 1) l (it, d) := by
      unfold Attrs.nextFromList
      dsimp only
      rw [hl]
    obtain ⟨d', h1, h2⟩ := Attrs.nextInList_outcome (l.remaining + 1) l it d (by omega) hd hi
    rw [← hrun] at h2
    rcases h2 with ⟨x, l1, g1, g2, g3⟩ | ⟨r, it', g1, g2, g3, g4⟩
    · obtain ⟨r, it', hr⟩ := Attrs.next_rep.gives hi it
      refine ⟨r, it', d', hr, h1, .inr ⟨x, g1, .inl ⟨_, Attrs.next_shown g3 (fun h => by cases h), rfl, ?_⟩⟩⟩
      intro s hs r' it2 hg
      obtain ⟨r1, it1, k⟩ := GivesL.exists hi l1 { it with skip := s }
      have k' := GivesL.pass (it := { it with skip := s }) (g2.mono hs) k
      exact Attrs.next_same hi (Attrs.nextFromList_gives (it := { it with skip := s }) hl k')
        (Attrs.nextFromList_gives (it := { it with list := some l1, skip := s }) rfl
          (GivesL.list (it := { it with skip := s }).2 k)) hg
    · by_cases hr : r = .ok none
      · obtain ⟨j1, j2⟩ := g3 hr
        rcases g4 with g4 | ⟨x, _, _, hne, _⟩
        · subst hr
          exact behind it' d' h1 g2 j1 (fun s hs => Attrs.nextFromList_gives (it := { it with skip := s }) hl (j2 s hs)) g4
        · exact absurd hr hne
      · refine ⟨r, it', d', Attrs.next_gives_shown (Attrs.nextFromList_gives hl g1) hr, h1, ?_⟩
        rcases g4 with g4 | ⟨x, hx, g4, g5, g6⟩
        · exact .inl (Attrs.next_shown g4 hr)
        · exact .inr ⟨x, hx, .inr ⟨Attrs.next_shown g4 (fun h => by cases h), g5, g6⟩⟩

/-! ### After a loss -/

/-- A further part of the attribute `p` is shown as if it were an attribute, or cannot be loaded. -/
def Again (p : Nat × AttrType) (r : Res (Option AttrItem)) : Prop :=
  (∃ i, r = .ok (some i) ∧ PartOf i p.1 p.2) ∨ ∀ o, r ≠ .ok o

theorem Attrs.next_unskipped {img : Bytes} (hi : img.length < U64) (p : Nat × AttrType) (it : Attrs) (hs : it.skip = some p) :
    ∃ r it' r2 it2', Gives img Attrs.next it r it' ∧ Gives img Attrs.next { it with skip := none } r2 it2' ∧
      ((r2 = r ∧ (it2' = it' ∨ (it2' = { it' with skip := none } ∧ it'.skip = some p ∧
          ∀ i, r = .ok (some i) → i.valueFile = none))) ∨
        (Again p r2 ∧ ∃ it1, it1.skip = some p ∧ Gives img Attrs.next it1 r it' ∧
          (it2' = it1 ∨ it2' = { it1 with skip := none }))) := by
  induction hn : it.raw.left using Nat.strongRecOn generalizing it with
  | _ n ih =>
  have behind : ∀ it1, it1.raw = it.raw → it1.skip = some p → Gives img Attrs.nextFromList it (.ok none) it1 →
      Gives img Attrs.nextFromList { it with skip := none } (.ok none) { it1 with skip := none } →
      ∃ r it' r2 it2', Gives img Attrs.next it r it' ∧ Gives img Attrs.next { it with skip := none } r2 it2' ∧
      ((r2 = r ∧ (it2' = it' ∨ (it2' = { it' with skip := none } ∧ it'.skip = some p ∧
          ∀ i, r = .ok (some i) → i.valueFile = none))) ∨
        (Again p r2 ∧ ∃ it1, it1.skip = some p ∧ Gives img Attrs.next it1 r it' ∧
          (it2' = it1 ∨ it2' = { it1 with skip := none }))) := by
    intro it1 hraw hsk h1 h2
    rcases it1.raw.next_step with ⟨r, raw', hv, g⟩ | ⟨l, raw', hlt, g⟩
    · refine ⟨r, { it1 with raw := raw' }, r, { it1 with raw := raw', skip := none }, fun e he => ?_, fun e he => ?_,
        .inl ⟨rfl, .inr ⟨rfl, hsk, hv⟩⟩⟩
      · obtain ⟨e', k1, k2⟩ := h1 e he
        exact ⟨e', k1, g _ _ _ _ rfl k2⟩
      · obtain ⟨e', k1, k2⟩ := h2 e he
        exact ⟨e', k1, g _ { it1 with skip := none } _ _ rfl k2⟩
    · obtain ⟨r, it', r2, it2', k1, k2, k3⟩ := ih raw'.left (by rw [← hn, ← hraw]; exact hlt)
        { it1 with raw := raw', list := some l } hsk rfl
      refine ⟨r, it', r2, it2', fun e he => ?_, fun e he => ?_, k3⟩
      · obtain ⟨e', j1, j2⟩ := h1 e he
        obtain ⟨e2, j3, j4⟩ := k1 e' j1
        exact ⟨e2, j3, by rw [g _ _ _ _ rfl j2, j4]⟩
      · obtain ⟨e', j1, j2⟩ := h2 e he
        obtain ⟨e2, j3, j4⟩ := k2 e' j1
        exact ⟨e2, j3, by rw [g _ { it1 with skip := none } _ _ rfl j2, j4]⟩
  obtain hl | ⟨l, hl⟩ : it.list = none ∨ ∃ l, it.list = some l := by
    cases it.list with
    | none => exact .inl rfl
    | some l => exact .inr ⟨l, rfl⟩
  · refine behind it rfl hs (fun e he => ⟨e, he, Attrs.nextFromList_nothing hl e⟩) fun e he => ⟨e, he, ?_⟩
    exact Attrs.nextFromList_nothing (it := { it with skip := none }) hl e
  · obtain ⟨l1, hp, hst⟩ := list_stop hi it.raw.file.number none l
    have hp' := hp.mono (s := it.skip) (.inl rfl)
    rcases hst with ⟨r, l2, hst⟩ | ⟨e, t, l2, hst, _⟩
    · have g1 := Attrs.nextFromList_gives hl (GivesL.pass hp' (hst.gives it))
      have g2 := Attrs.nextFromList_gives (it := { it with skip := none }) hl
        (GivesL.pass (it := { it with skip := none }) hp (hst.gives { it with skip := none }))
      by_cases hr : r = .ok none
      · subst hr
        exact behind { it with list := some l2 } rfl hs g1 g2
      · exact ⟨r, _, r, _, Attrs.next_gives_shown g1 hr, Attrs.next_gives_shown g2 hr,
          .inl ⟨rfl, .inr ⟨rfl, hs, fun i h => absurd h (hst.nothing i)⟩⟩⟩
    · obtain ⟨r0, sk, j1, j2, j3, _⟩ := hst.shows hi
      have g2 := Attrs.nextFromList_gives (it := { it with skip := none }) hl
        (GivesL.pass (it := { it with skip := none }) hp (j3 { it with skip := none } rfl (fun h => by cases h)))
      by_cases hpe : p = (e.inst, t)
      · subst hpe
        obtain ⟨r, it', hr⟩ := Attrs.next_rep.gives hi it
        refine ⟨r, it', r0, _, hr, Attrs.next_gives_shown g2 j1, .inr ⟨?_, { it with list := some l2 }, hs, ?_, ?_⟩⟩
        · rcases j2 with ⟨i, k1, k2, _⟩ | ⟨k1, _⟩
          · exact .inl ⟨i, k1, k2⟩
          · exact .inr k1
        · obtain ⟨r1, ita, k⟩ := GivesL.exists hi l2 it
          exact Attrs.next_same hi (Attrs.nextFromList_gives hl (GivesL.pass (hp'.snoc hst.next hst.ty (.inr hs)) k))
            (Attrs.nextFromList_gives (it := { it with list := some l2 }) rfl (GivesL.list.2 k)) hr
        · have : sk = none ∨ sk = some (e.inst, t) := by
            rcases j2 with ⟨_, _, _, k⟩ | ⟨_, k⟩
            · exact k
            · exact .inl k
          rcases this with rfl | rfl
          · exact .inr rfl
          · exact .inl (by rw [← hs])
      · have g1 := Attrs.nextFromList_gives hl (GivesL.pass hp' (j3 it rfl (fun h => hpe (by rw [hs] at h; injection h))))
        exact ⟨r0, _, r0, _, Attrs.next_gives_shown g1 j1, Attrs.next_gives_shown g2 j1, .inl ⟨rfl, .inl rfl⟩⟩

/-! ### Any number of calls -/

/-- The results `rs` on a device that fails, and the results `hs` on one that works. `last` is a split attribute that
was lost and whose further parts may still come.

* A call gives the same as on the device that works (`shown`).
* A call reports a failure, and nothing is lost (`failed`).
* A call reports a failure in place of one result, which is lost; it was not the end (`lost`).
* A call shows a further part of the attribute lost last, as if it were an attribute (`again`). -/
inductive Spec.Lossy (F : IoErr → Prop) :
    Option (Nat × AttrType) → List (Res (Option AttrItem)) → List (Res (Option AttrItem)) → Prop
  | nil (last : Option (Nat × AttrType)) : Lossy F last [] []
  | shown {last last' : Option (Nat × AttrType)} {hs rs : List (Res (Option AttrItem))} (r : Res (Option AttrItem)) :
      last' = none ∨ (last' = last ∧ ∀ i, r = .ok (some i) → i.valueFile = none) →
      Lossy F last' hs rs → Lossy F last (r :: hs) (r :: rs)
  | failed {last : Option (Nat × AttrType)} {hs rs : List (Res (Option AttrItem))} {e : IoErr} :
      F e → Lossy F last hs rs → Lossy F last hs (.err (.io e) :: rs)
  | lost {last last' : Option (Nat × AttrType)} {hs rs : List (Res (Option AttrItem))} {e : IoErr}
      (r : Res (Option AttrItem)) : F e → r ≠ .ok none → LostIs r last' ∨ (last' = last ∧ ∀ o, r ≠ .ok o) →
      Lossy F last' hs rs → Lossy F last (r :: hs) (.err (.io e) :: rs)
  | again {p : Nat × AttrType} {hs rs : List (Res (Option AttrItem))} (r : Res (Option AttrItem)) :
      Again p r → Lossy F (some p) hs rs → Lossy F (some p) hs (r :: rs)

theorem Spec.Lossy.mono {F G : IoErr → Prop} (h : ∀ e, F e → G e) {last : Option (Nat × AttrType)}
    {hs rs : List (Res (Option AttrItem))} (k : Lossy F last hs rs) : Lossy G last hs rs := by
  induction k with
  | nil last => exact .nil last
  | shown r h1 _ ih => exact .shown r h1 ih
  | failed he _ ih => exact .failed (h _ he) ih
  | lost r he h1 h2 _ ih => exact .lost r (h _ he) h1 h2 ih
  | again r h1 _ ih => exact .again r h1 ih

/-- `b` goes on like `a`, or has forgotten that the parts of `last` are to be skipped. -/
def Sim (img : Bytes) (last : Option (Nat × AttrType)) (a b : Attrs) : Prop :=
  ∃ c, (∀ r it', Gives img Attrs.next a r it' → Gives img Attrs.next c r it') ∧
    (b = c ∨ ∃ p, last = some p ∧ c.skip = some p ∧ b = { c with skip := none })

theorem Sim.calls (img : Bytes) (hi : img.length < U64) (k : Nat) (last : Option (Nat × AttrType)) (a b : Attrs)
    (h : Sim img last a b) (d e : Dev) (hd : d.Calm) (hdi : d.img = img) (he : e.Ok img) :
    ∃ m, m ≤ k ∧ Lossy (fun x => .fail x ∈ d.sched) last (callsOf Attrs.next m (a, e)) (callsOf Attrs.next k (b, d)) := by
  induction k generalizing last a b d e with
  | zero => exact ⟨0, Nat.le_refl _, .nil _⟩
  | succ k ih =>
    subst hdi
    obtain ⟨c, hc, hb⟩ := h
    obtain ⟨r, a', ha⟩ := Attrs.next_rep.gives hi a
    have hca := hc _ _ ha
    obtain ⟨e', he', hae⟩ := ha e he
    obtain ⟨r2, b', d', hgb, hl, ho⟩ := Attrs.next_outcome b d hd hi
    -- how the healthy call of `b` compares with that of `a`
    have cmp : (r2 = r ∧ (b' = a' ∨ ∃ p, last = some p ∧ b' = { a' with skip := none } ∧ a'.skip = some p ∧
          ∀ i, r = .ok (some i) → i.valueFile = none)) ∨
        ∃ p, last = some p ∧ Again p r2 ∧ ∃ z, z.skip = some p ∧ Gives d.img Attrs.next z r a' ∧
          (b' = z ∨ b' = { z with skip := none }) := by
      rcases hb with rfl | ⟨p, h1, h2, rfl⟩
      · obtain ⟨rfl, rfl⟩ := Gives.unique hgb hca
        exact .inl ⟨rfl, .inl rfl⟩
      · obtain ⟨r3, a3, r4, b4, g1, g2, g3⟩ := Attrs.next_unskipped hi p c h2
        obtain ⟨rfl, rfl⟩ := Gives.unique g1 hca
        obtain ⟨rfl, rfl⟩ := Gives.unique g2 hgb
        rcases g3 with ⟨k1, k2 | k2⟩ | ⟨k1, z, k2⟩
        · exact .inl ⟨k1, .inl k2⟩
        · exact .inl ⟨k1, .inr ⟨p, h1, k2⟩⟩
        · exact .inr ⟨p, h1, k1, z, k2⟩
    have go : ∀ last' a1 b1 e1, Sim d.img last' a1 b1 → e1.Ok d.img → ∃ m, m ≤ k ∧
        Lossy (fun x => .fail x ∈ d.sched) last' (callsOf Attrs.next m (a1, e1)) (callsOf Attrs.next k (b1, d')) := by
      intro last' a1 b1 e1 hs h1
      obtain ⟨m, g1, g2⟩ := ih last' a1 b1 hs d' e1 (hl.calm hd) hl.img h1
      exact ⟨m, g1, g2.mono fun _ => hl.fails⟩
    have stay : ∀ z : Attrs, Gives d.img Attrs.next z r a' → ∀ r it', Gives d.img Attrs.next a r it' →
        Gives d.img Attrs.next z r it' := by
      intro z hz r3 it3 h3
      obtain ⟨rfl, rfl⟩ := Gives.unique ha h3
      exact hz
    have split : ∀ x y, Attrs.next (b, d) = (x, (y, d')) → callsOf Attrs.next (k + 1) (b, d) = x :: callsOf Attrs.next k (y, d') := by
      intro x y h
      simp only [callsOf, h]
    have split' : ∀ m, callsOf Attrs.next (m + 1) (a, e) = r :: callsOf Attrs.next m (a', e') := by
      intro m
      simp only [callsOf, hae]
    rcases ho with ho | ⟨x, hx, ⟨b1, ho, hk⟩ | ⟨ho, hne, hlost⟩⟩
    · rw [split _ _ ho]
      rcases cmp with ⟨rfl, hab⟩ | ⟨p, rfl, h1, z, h2, h3, h4⟩
      · rcases hab with rfl | ⟨p, rfl, rfl, h2, h3⟩
        · obtain ⟨m, g1, g2⟩ := go none b' b' e' ⟨b', fun _ _ h => h, .inl rfl⟩ he'
          exact ⟨m + 1, by omega, by rw [split']; exact .shown _ (.inl rfl) g2⟩
        · obtain ⟨m, g1, g2⟩ := go (some p) a' { a' with skip := none } e' ⟨a', fun _ _ h => h, .inr ⟨p, rfl, h2, rfl⟩⟩ he'
          exact ⟨m + 1, by omega, by rw [split']; exact .shown _ (.inr ⟨rfl, h3⟩) g2⟩
      · have hs : Sim d.img (some p) a b' := by
          refine ⟨z, stay z h3, ?_⟩
          rcases h4 with h4 | h4
          · exact .inl h4
          · exact .inr ⟨p, rfl, h2, h4⟩
        obtain ⟨m, g1, g2⟩ := go (some p) a b' e hs he
        exact ⟨m, by omega, .again _ h1 g2⟩
    · rw [split _ _ ho]
      have hs : Sim d.img last a b1 := by
        rcases hb with rfl | ⟨p, h1, h2, rfl⟩
        · refine ⟨b1, fun r3 it3 h3 => ?_, .inl rfl⟩
          have := hk.same b.skip (.inr rfl) r3 it3 (hc _ _ h3)
          rw [← hk.skip] at this
          exact this
        · refine ⟨{ b1 with skip := some p }, fun r3 it3 h3 => ?_, .inr ⟨p, h1, rfl, ?_⟩⟩
          · refine hk.same (some p) (.inl rfl) r3 it3 ?_
            have h4 := hc _ _ h3
            rw [← h2]
            exact h4
          · have := hk.skip
            obtain ⟨x1, x2, x3⟩ := b1
            dsimp only at this
            rw [this]
      obtain ⟨m, g1, g2⟩ := go last a b1 e hs he
      exact ⟨m, by omega, .failed hx g2⟩
    · rw [split _ _ ho]
      rcases cmp with ⟨rfl, hab⟩ | ⟨p, rfl, h1, z, h2, h3, h4⟩
      · rcases hab with rfl | ⟨p, rfl, rfl, h2, h3⟩
        · have hs : Sim d.img b'.skip b' { b' with skip := none } := by
            refine ⟨b', fun _ _ h => h, ?_⟩
            obtain hsk | ⟨p, hsk⟩ : b'.skip = none ∨ ∃ p, b'.skip = some p := by
              cases b'.skip with
              | none => exact .inl rfl
              | some p => exact .inr ⟨p, rfl⟩
            · left; rw [← hsk]
            · exact .inr ⟨p, hsk, hsk, rfl⟩
          obtain ⟨m, g1, g2⟩ := go _ b' _ e' hs he'
          exact ⟨m + 1, by omega, by rw [split']; exact .lost _ hx hne (.inl hlost) g2⟩
        · have hno : ∀ o, r2 ≠ .ok o := by
            rcases hlost with ⟨i, n, t, k1, ⟨f, k2, _⟩, _⟩ | ⟨k1, _⟩
            · rw [h3 i k1] at k2; cases k2
            · exact k1
          obtain ⟨m, g1, g2⟩ := go (some p) a' { a' with skip := none } e' ⟨a', fun _ _ h => h, .inr ⟨p, rfl, h2, rfl⟩⟩ he'
          exact ⟨m + 1, by omega, by rw [split']; exact .lost _ hx hne (.inr ⟨rfl, hno⟩) g2⟩
      · have hs : Sim d.img (some p) a { b' with skip := none } := by
          refine ⟨z, stay z h3, .inr ⟨p, rfl, h2, ?_⟩⟩
          rcases h4 with rfl | rfl <;> rfl
        obtain ⟨m, g1, g2⟩ := go (some p) a _ e hs he
        exact ⟨m, by omega, .failed hx g2⟩

/-- **C68** for the attributes of a file, the part that holds: on a device that fails at any of its calls, `k` calls of
`next` give what `m` calls give on a device that works, but each failure of the device may take the place of one
result; and if that was an attribute split over several list entries, its further parts may be shown afterwards
as attributes of their own. Nothing else is lost, shown twice or changed. Missing: that nothing is lost, see
`C68_attributes_negation`. -/
theorem C68_attributes_partial (it : Attrs) (k : Nat) (d e : Dev) (hd : d.Calm) (hi : d.img.length < U64)
    (he : e.Ok d.img) :
    ∃ m, m ≤ k ∧
      Lossy (fun x => .fail x ∈ d.sched) none (callsOf Attrs.next m (it, e)) (callsOf Attrs.next k (it, d)) :=
  Sim.calls d.img hi k none it it ⟨it, fun _ _ h => h, .inl rfl⟩ d e hd rfl he

/-- The example of `C68_attributes_negation` meets the hypotheses: the attribute is split over the records 1 and 2; the
first part is lost, the second is shown in its place, and then comes the end. -/
example : ∃ m, m ≤ 3 ∧ Lossy (fun x => x = .other 5) none
    (callsOf Attrs.next m (⟨⟨exFlatFile 3, 56, 128⟩, none, none⟩, ⟨exFlatImage, 0, []⟩))
    (callsOf Attrs.next 3 (⟨⟨exFlatFile 3, 56, 128⟩, none, none⟩,
      ⟨exFlatImage, 0, List.replicate 4 (.chunk 1000) ++ [.fail (.other 5)]⟩)) := by
  have hlen : exFlatImage.length < U64 := by decide +kernel
  obtain ⟨m, h1, h2⟩ := C68_attributes_partial ⟨⟨exFlatFile 3, 56, 128⟩, none, none⟩ 3
    ⟨exFlatImage, 0, List.replicate 4 (.chunk 1000) ++ [.fail (.other 5)]⟩ ⟨exFlatImage, 0, []⟩
    (by intro r hr; simp at hr; rcases hr with rfl | rfl <;> simp) hlen (Dev.ok_fresh _)
  refine ⟨m, h1, h2.mono fun x hx => ?_⟩
  simp at hx
  exact hx

end NT
