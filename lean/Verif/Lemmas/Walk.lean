import Verif.Props.C23_Flatten
import Verif.Model.FileOps

/-! The flattened attributes of a file, in a form that lookups over them can use: lookups read from
the device between the calls of `next`. -/

namespace NT

open Spec

/-- The file `base` whose attributes are looked up, the volume and the image it is on, and the extents
of the MFT of this volume. -/
structure View where
  ntfs : Ntfs
  img : Bytes
  mftEs : List Extent
  base : NFile

/-- What one call of the flattened iteration is about: the attribute at `off` of the base record, or
an entry of the attribute list (with the entries behind it). -/
inductive Step
  | own (off : Nat)
  | entry (e : LEntry) (after : List LEntry)

/-- The step is about the attribute at `off` of the file record `file`. -/
def Step.At (V : View) : Step → NFile → Nat → Prop
  | .own o, file, off => file = V.base ∧ off = o ∧ ∃ len, AttrAt V.base.recordData o len
  | .entry e _, file, off => Loads V.ntfs V.img V.mftEs e file off

/-- The attribute of the step cannot be loaded, with this error. -/
def Step.Fails (V : View) : Step → Err → Prop
  | .own _, _ => False
  | .entry e _, x => LoadFails V.ntfs V.img V.mftEs e x

/-- What the caller of `next` gets. -/
def Step.Result (V : View) : Step → Res (Option AttrItem) → Prop
  | .own o, r => r = ownItem V.base o ∧ ∃ len, AttrAt V.base.recordData o len
  | .entry e after, r => Shows V.ntfs V.img V.mftEs V.base e after r

/-- `steps` are all flattened attributes of the file, and after them the iteration gives `r` (see
`C23_no_list` and `C23_with_list`). -/
inductive Flattened (V : View) : List Step → Res (Option AttrItem) → Prop
  | plain (offs : List Nat) (fin : Nat) (r : Res (Option AttrItem)) :
      32 ≤ V.base.recordData.length →
      Chain V.base.recordData (field V.base.recordData 20 2) offs fin →
      (∀ o ∈ offs, field V.base.recordData o 4 ≠ 0x20) → EndResult V.base fin r →
      Flattened V (offs.map .own) r
  | listed {mft : NFile} {mpre : List Nat} {moff mlen mstart : Nat}
      (hm : MftStored V.ntfs V.img mft V.mftEs mpre moff mlen mstart)
      (offs1 offs2 : List Nat) (offL lenL fin : Nat) (es : List LEntry)
      (gs : List (LEntry × List LEntry)) (r : Res (Option AttrItem)) :
      V.base.ntfs = V.ntfs → 32 ≤ V.base.recordData.length →
      Chain V.base.recordData (field V.base.recordData 20 2) (offs1 ++ offL :: offs2) fin →
      (∀ o ∈ offs1 ++ offs2, field V.base.recordData o 4 ≠ 0x20) →
      AttrAt V.base.recordData offL lenL → ListStored V.ntfs V.img V.base offL lenL es →
      (∀ e ∈ es, ∃ t : AttrType, e.ty = t.code) →
      Groups V.base.number (KindOf V.ntfs V.img V.mftEs) es gs → EndResult V.base fin r →
      Flattened V (offs1.map .own ++ (gs.map (fun g => .entry g.1 g.2) ++ offs2.map .own)) r

/-- The following calls of `next` have results with these properties, whatever happens to the device
between them. -/
def Attrs.Walk (img : Bytes) : Attrs → List (Res (Option AttrItem) → Prop) → Prop
  | _, [] => True
  | it, p :: ps => ∀ d : Dev, d.Ok img → ∃ r it' d', Attrs.next (it, d) = (r, (it', d')) ∧ p r ∧
      d'.Ok img ∧ Attrs.Walk img it' ps

variable {V : View}

theorem Attrs.walk_end (r : Res (Option AttrItem)) (it : Attrs)
    (he : EndResult V.base it.raw.start r) (h : it.Spent V.img V.base) :
    Attrs.Walk V.img it [(· = r)] := by
  intro d hd
  obtain ⟨it1, d1, q1, q2, q3, q6⟩ := nextLoop_end V.base it h d hd r he
  exact ⟨r, it1, d1, q6 _, rfl, q1, trivial⟩

theorem Attrs.walk_raw (ps : List (Res (Option AttrItem) → Prop)) (offs : List Nat) (off fin : Nat)
    (hc : Chain V.base.recordData off offs fin)
    (hty : ∀ o ∈ offs, field V.base.recordData o 4 ≠ 0x20)
    (it : Attrs) (hoff : it.raw.start = off) (h : it.Spent V.img V.base)
    (hrest : ∀ it' : Attrs, it'.Spent V.img V.base → it'.raw.start = fin →
      (it.list = none → it'.list = none) → it'.skip = it.skip → Attrs.Walk V.img it' ps) :
    Attrs.Walk V.img it ((offs.map Step.own).map (Step.Result V) ++ ps) := by
  induction hc generalizing it with
  | nil off => exact hrest it h hoff id rfl
  | @cons off len fin offs ha hc ih =>
    intro d hd
    have ha' := ha
    rw [← hoff] at ha
    obtain ⟨it1, d1, q1, q2, q3, q4, q5, q6⟩ := nextLoop_raw V.base it h d hd len ha
      (by rw [hoff]; exact hty off (by simp))
    refine ⟨_, it1, d1, q6 _, ⟨by rw [hoff], len, ha'⟩, q1, ?_⟩
    exact ih (fun o ho => hty o (by simp [ho])) it1 (by rw [q3, hoff]) q2
      (fun it' g1 g2 g3 g4 => hrest it' g1 g2 (fun hn => g3 (q4 hn)) (by rw [g4, q5]))

theorem Attrs.walk_list {mft : NFile} {mpre : List Nat} {moff mlen mstart : Nat}
    (hm : MftStored V.ntfs V.img mft V.mftEs mpre moff mlen mstart) (hbn : V.base.ntfs = V.ntfs)
    (ps : List (Res (Option AttrItem) → Prop)) (gs : List (LEntry × List LEntry)) (it : Attrs)
    (h : it.InList V.img (KindOf V.ntfs V.img V.mftEs) V.base gs)
    (hrest : ∀ it' : Attrs, it'.Spent V.img V.base → it'.raw = it.raw → Attrs.Walk V.img it' ps) :
    Attrs.Walk V.img it ((gs.map (fun g => Step.entry g.1 g.2)).map (Step.Result V) ++ ps) := by
  induction gs generalizing it with
  | nil => exact hrest it ⟨h.file, .inr ⟨_, h⟩⟩ rfl
  | cons g gs ih =>
    intro d hd
    obtain ⟨r, it1, d1, q1, q2, q3, q4, q5, q6⟩ := nextFromList_show hm V.base hbn g gs it h d hd
    have hloop : Attrs.next (it, d) = (r, (it1, d1)) := by
      rw [next_eq, nextLoop, StM.bind_apply, q2]
      rcases q4 with ⟨i, _, rfl, _⟩ | ⟨x, rfl, _⟩ <;> rfl
    exact ⟨r, it1, d1, hloop, q4, q1, ih it1 q6 (fun it' g1 g2 => hrest it' g1 (by rw [g2, q5]))⟩

/-- The calls of `next` of a new iteration. -/
theorem Flattened.walk {steps : List Step} {r : Res (Option AttrItem)} (h : Flattened V steps r) :
    ∃ it, V.base.attributes = .ok it ∧
      Attrs.Walk V.img it (steps.map (Step.Result V) ++ [(· = r)]) := by
  have hit : 32 ≤ V.base.recordData.length → V.base.attributes = .ok
      ⟨⟨V.base, field V.base.recordData 20 2, field V.base.recordData 24 4⟩, none, none⟩ := by
    intro h
    unfold NFile.attributes; rw [NFile.attributesRaw_eq V.base h]; rfl
  cases h with
  | plain offs fin r h32 hc hty he =>
    refine ⟨_, hit h32, ?_⟩
    exact Attrs.walk_raw _ offs _ fin hc hty _ rfl ⟨rfl, .inl rfl⟩
      (fun it' g1 g2 _ _ => Attrs.walk_end r it' (by rw [g2]; exact he) g1)
  | @listed mft mpre moff mlen mstart hm offs1 offs2 offL lenL fin es gs r hbn h32 hc hty hL hst hes hg he =>
    refine ⟨_, hit h32, ?_⟩
    obtain ⟨mid, hc1, hc2⟩ := hc.append
    cases hc2 with
    | @cons _ len _ _ ha hc2 =>
    have hlen : len = lenL := by have := ha.length; have := hL.length; omega
    subst hlen
    rw [List.map_append, List.map_append, List.append_assoc, List.append_assoc]
    refine Attrs.walk_raw _ offs1 _ offL hc1 (fun o ho => hty o (by simp [ho])) _ rfl
      ⟨rfl, .inl rfl⟩ (fun it1 q2 q3 q4 q5 => ?_)
    have hraw : (∃ len', AttrAt V.base.recordData (it1.raw.start + len) len' ∧
          field V.base.recordData (it1.raw.start + len) 4 ≠ 0x20) ∨
        ∃ r, EndResult V.base (it1.raw.start + len) r := by
      rw [q3]
      cases hc2 with
      | nil => exact .inr ⟨r, he⟩
      | cons h1 _ => exact .inl ⟨_, h1, hty _ (by simp)⟩
    have hopen : ∀ d : Dev, d.Ok V.img → ∃ it2 : Attrs, Attrs.next (it1, d) = Attrs.next (it2, d) ∧
        Attrs.Walk V.img it2 ((gs.map (fun g => Step.entry g.1 g.2)).map (Step.Result V) ++
          ((offs2.map Step.own).map (Step.Result V) ++ [(· = r)])) := by
      intro d hd
      obtain ⟨it2, p1, p2, p3⟩ := Attrs.next_open hm V.base hbn es gs it1 q2.1 (q4 rfl) q5 len
        (by rw [q3]; exact ha) (by rw [q3]; exact hst) hes hg d hd hraw
      refine ⟨it2, p3, Attrs.walk_list hm hbn _ gs it2 p1 (fun it3 s2 s3 => ?_)⟩
      exact Attrs.walk_raw _ offs2 _ fin hc2 (fun o ho => hty o (by simp [ho])) it3
        (by rw [s3, p2, q3]) s2
        (fun it4 t2 t3 _ _ => Attrs.walk_end r it4 (by rw [t3]; exact he) t2)
    generalize (gs.map (fun g => Step.entry g.1 g.2)).map (Step.Result V) ++
          ((offs2.map Step.own).map (Step.Result V) ++ [(· = r)]) = ps at hopen ⊢
    cases ps with
    | nil => trivial
    | cons p ps =>
      intro d hd
      obtain ⟨it2, e, hw⟩ := hopen d hd
      rw [e]
      exact hw d hd

/-- The attribute of an item. -/
theorem Step.item {s : Step} {i : AttrItem} (h : s.Result V (.ok (some i))) :
    ∃ file, s.At V file i.offset ∧ i.toAttribute = .ok ⟨file, i.offset, i.list⟩ ∧
      (Attr.mk file i.offset i.list).Valid ∧
      (field file.recordData (i.offset + 8) 1 = 0 → i.list = none) := by
  have hv : ∀ (file : NFile) (off len : Nat) (l : Option AttrList), AttrAt file.recordData off len →
      (Attr.mk file off l).Valid := by
    intro file off len l h
    have h1 := h.length
    have h2 := h.header
    have h3 := h.inside
    exact ⟨by unfold Attr.HeaderIn; simp only [Attr.recordData]; omega,
      by simp only [Attr.recordData]; omega, by simp only [Attr.recordData]; omega⟩
  cases s with
  | own o =>
    obtain ⟨h, len, ha⟩ := h
    injection h with h
    injection h with h
    subst h
    exact ⟨V.base, ⟨rfl, rfl, len, ha⟩, Attr.new_ok_iff.2 ⟨rfl, hv _ _ len _ ha⟩, hv _ _ len _ ha,
      fun _ => rfl⟩
  | entry e after =>
    rcases h with ⟨i', file, h1, h2, h3, h4, h5, h6⟩ | ⟨x, h1, _⟩
    case inr => cases h1
    injection h1 with h1
    injection h1 with h1
    subst h1
    obtain ⟨_, _, hat, _⟩ := id h4
    obtain ⟨_, len, _, ha, _⟩ := hat
    refine ⟨file, h4, ?_, hv _ _ len _ ha, h5⟩
    unfold AttrItem.toAttribute
    rw [h3]
    exact Attr.new_ok_iff.2 ⟨rfl, hv _ _ len _ ha⟩

theorem Step.result_cases {s : Step} {r : Res (Option AttrItem)} (h : s.Result V r) :
    (∃ i, r = .ok (some i)) ∨ ∃ x, r = .err x ∧ s.Fails V x := by
  cases s with
  | own o => exact .inl ⟨_, h.1⟩
  | entry e after =>
    rcases h with ⟨i, _, h, _⟩ | ⟨x, h, h'⟩
    · exact .inl ⟨i, h⟩
    · exact .inr ⟨x, h, h'⟩

/-- A step is about at most one attribute. -/
theorem Step.At.unique {s : Step} {file file' : NFile} {off off' : Nat} (h : s.At V file off)
    (h' : s.At V file' off') (ht : ∀ e after, s = .entry e after → ∃ t : AttrType, e.ty = t.code) :
    file = file' ∧ off = off' := by
  cases s with
  | own o =>
    obtain ⟨rfl, rfl, _⟩ := h
    obtain ⟨rfl, rfl, _⟩ := h'
    exact ⟨rfl, rfl⟩
  | entry e after =>
    obtain ⟨t, ht⟩ := ht e after rfl
    exact Loads.unique ht h h'

theorem Step.At.not_fails {s : Step} {file : NFile} {off : Nat} (h : s.At V file off) {x : Err} :
    ¬ s.Fails V x := by
  cases s with
  | own o => exact id
  | entry e after => exact Loads.not_fails h

theorem Spec.Groups.mem {base : Nat} {K : LEntry → Kind → Prop} {es : List LEntry}
    {gs : List (LEntry × List LEntry)} (h : Groups base K es gs) : ∀ g ∈ gs, g.1 ∈ es := by
  induction h with
  | nil => simp
  | own e es gs _ _ ih => exact fun g hg => List.mem_cons_of_mem _ (ih g hg)
  | resident e es gs _ _ _ ih | fails e es gs _ _ _ ih =>
    intro g hg
    rcases List.mem_cons.1 hg with rfl | hg
    · simp
    · exact List.mem_cons_of_mem _ (ih g hg)
  | split e conn rest gs _ _ _ _ _ ih =>
    intro g hg
    rcases List.mem_cons.1 hg with rfl | hg
    · simp
    · have := ih g hg
      simp [this]

/-- The list entries among the steps have known attribute types. -/
theorem Flattened.known {steps : List Step} {r : Res (Option AttrItem)} (h : Flattened V steps r) :
    ∀ s ∈ steps, ∀ e after, s = .entry e after → ∃ t : AttrType, e.ty = t.code := by
  cases h with
  | plain offs fin r h32 hc hty he =>
    rintro s hs e after rfl
    obtain ⟨_, _, h⟩ := List.mem_map.1 hs
    cases h
  | listed hm offs1 offs2 offL lenL fin es gs r hbn h32 hc hty hL hst hes hg he =>
    rintro s hs e after rfl
    rcases List.mem_append.1 hs with hs | hs
    · obtain ⟨_, _, h⟩ := List.mem_map.1 hs
      cases h
    rcases List.mem_append.1 hs with hs | hs
    · obtain ⟨g, hg', h⟩ := List.mem_map.1 hs
      cases h
      exact hes _ (hg.mem g hg')
    · obtain ⟨_, _, h⟩ := List.mem_map.1 hs
      cases h

/-- The loop of a lookup. `verdict s q` says that the body of the loop may have the result `q` for the
step `s`. The lookup has the result of the first step for which it is not "continue", and the result
of the end of the iteration if there is none. -/
theorem Attrs.search_spec {α : Type} (pick : AttrItem → Attr → StM Dev (Option α))
    (verdict : Step → Res (Option α) → Prop) (steps : List Step) (r : Res (Option AttrItem))
    (hr : r = .ok none ∨ ∃ x, r = .err x)
    (hfail : ∀ s ∈ steps, ∀ x, s.Fails V x → verdict s (.err x))
    (hpick : ∀ s ∈ steps, ∀ i file, s.Result V (.ok (some i)) → s.At V file i.offset →
      (Attr.mk file i.offset i.list).Valid →
      (field file.recordData (i.offset + 8) 1 = 0 → i.list = none) → ∀ d : Dev, d.Ok V.img →
      ∃ q d', pick i ⟨file, i.offset, i.list⟩ d = (q, d') ∧ d'.Ok V.img ∧ verdict s q)
    (it : Attrs) (hw : Attrs.Walk V.img it (steps.map (Step.Result V) ++ [(· = r)])) (fuel : Nat)
    (hfuel : steps.length < fuel) (d : Dev) (hd : d.Ok V.img) :
    ∃ q it' d', Attrs.search pick fuel (it, d) = (q, (it', d')) ∧ d'.Ok V.img ∧
      ((∃ pre s post, steps = pre ++ s :: post ∧ (∀ p ∈ pre, verdict p (.ok none)) ∧ q ≠ .ok none ∧
          verdict s q) ∨
       ((∀ p ∈ steps, verdict p (.ok none)) ∧
          ((r = .ok none ∧ q = .ok none) ∨ ∃ x, r = .err x ∧ q = .err x))) := by
  induction steps generalizing it fuel d with
  | nil =>
    obtain ⟨fuel, rfl⟩ : ∃ k, fuel = k + 1 := ⟨fuel - 1, by simp at hfuel; omega⟩
    obtain ⟨r', it', d', h1, rfl, h3, _⟩ := hw d hd
    rcases hr with rfl | ⟨x, rfl⟩
    · exact ⟨.ok none, it', d', by rw [Attrs.search, StM.bind_of_ok h1]; rfl, h3,
        .inr ⟨by simp, .inl ⟨rfl, rfl⟩⟩⟩
    · exact ⟨.err x, it', d', by rw [Attrs.search, StM.bind_of_err h1], h3,
        .inr ⟨by simp, .inr ⟨x, rfl, rfl⟩⟩⟩
  | cons s steps ih =>
    obtain ⟨fuel, rfl⟩ : ∃ k, fuel = k + 1 := ⟨fuel - 1, by simp at hfuel; omega⟩
    obtain ⟨r', it', d', h1, h2, h3, h4⟩ := hw d hd
    rcases Step.result_cases h2 with ⟨i, rfl⟩ | ⟨x, rfl, hx⟩
    · obtain ⟨file, g1, g2, g3, g4⟩ := Step.item h2
      obtain ⟨q, d2, p1, p2, p3⟩ := hpick s (by simp) i file h2 g1 g3 g4 d' h3
      have hon : StM.onDev (σ := Attrs) (pick i ⟨file, i.offset, i.list⟩) (it', d') = (q, (it', d2)) := by
        unfold StM.onDev; simp only; rw [p1]
      by_cases hq : q = .ok none
      · subst hq
        obtain ⟨q, it3, d3, i1, i2, i3⟩ := ih (fun s hs => hfail s (by simp [hs]))
          (fun s hs => hpick s (by simp [hs])) it' h4 fuel (by simp at hfuel; omega) d2 p2
        refine ⟨q, it3, d3, ?_, i2, ?_⟩
        · rw [Attrs.search, StM.bind_of_ok h1]
          dsimp only
          rw [StM.bind_of_ok (a := ⟨file, i.offset, i.list⟩) (s' := (it', d'))
            (by rw [StM.lift_apply, g2]), StM.bind_of_ok hon]
          exact i1
        · rcases i3 with ⟨pre, s', post, j1, j2, j3, j4⟩ | ⟨j1, j2⟩
          · refine .inl ⟨s :: pre, s', post, by rw [j1]; rfl, ?_, j3, j4⟩
            intro p hp
            rcases List.mem_cons.1 hp with rfl | hp
            · exact p3
            · exact j2 p hp
          · refine .inr ⟨?_, j2⟩
            intro p hp
            rcases List.mem_cons.1 hp with rfl | hp
            · exact p3
            · exact j1 p hp
      · refine ⟨q, it', d2, ?_, p2, .inl ⟨[], s, steps, rfl, by simp, hq, p3⟩⟩
        rw [Attrs.search, StM.bind_of_ok h1]
        dsimp only
        rw [StM.bind_of_ok (a := ⟨file, i.offset, i.list⟩) (s' := (it', d'))
          (by rw [StM.lift_apply, g2]), StM.bind_apply, hon]
        cases q with
        | ok o =>
          cases o with
          | none => exact absurd rfl hq
          | some x => rfl
        | err => rfl
        | panic => rfl
        | diverge => rfl
    · exact ⟨.err x, it', d', by rw [Attrs.search, StM.bind_of_err h1], h3,
        .inl ⟨[], s, steps, rfl, by simp, by simp, hfail s (by simp) x hx⟩⟩

/-- The same for a lookup in a file. -/
theorem NFile.search_spec {α : Type} (pick : AttrItem → Attr → StM Dev (Option α))
    (verdict : Step → Res (Option α) → Prop) {steps : List Step} {r : Res (Option AttrItem)}
    (h : Flattened V steps r)
    (hfail : ∀ s ∈ steps, ∀ x, s.Fails V x → verdict s (.err x))
    (hpick : ∀ s ∈ steps, ∀ i file, s.Result V (.ok (some i)) → s.At V file i.offset →
      (Attr.mk file i.offset i.list).Valid →
      (field file.recordData (i.offset + 8) 1 = 0 → i.list = none) → ∀ d : Dev, d.Ok V.img →
      ∃ q d', pick i ⟨file, i.offset, i.list⟩ d = (q, d') ∧ d'.Ok V.img ∧ verdict s q)
    (fuel : Nat) (hfuel : steps.length < fuel) (d : Dev) (hd : d.Ok V.img) :
    ∃ q d', V.base.search pick fuel d = (q, d') ∧ d'.Ok V.img ∧
      ((∃ pre s post, steps = pre ++ s :: post ∧ (∀ p ∈ pre, verdict p (.ok none)) ∧ q ≠ .ok none ∧
          verdict s q) ∨
       ((∀ p ∈ steps, verdict p (.ok none)) ∧
          ((r = .ok none ∧ q = .ok none) ∨ ∃ x, r = .err x ∧ q = .err x))) := by
  obtain ⟨it, h1, h2⟩ := h.walk
  have hr : r = .ok none ∨ ∃ x, r = .err x := by
    cases h with
    | plain _ _ _ _ _ _ he => exact he.elim (fun h => .inl h.2) (fun h => .inr ⟨_, h.2.2⟩)
    | listed _ _ _ _ _ _ _ _ _ _ _ _ _ _ _ _ _ he =>
      exact he.elim (fun h => .inl h.2) (fun h => .inr ⟨_, h.2.2⟩)
  obtain ⟨q, it', d', g1, g2, g3⟩ := Attrs.search_spec pick verdict steps r hr hfail hpick it h2 fuel
    hfuel d hd
  refine ⟨q, d', ?_, g2, g3⟩
  unfold NFile.search
  rw [h1]
  dsimp only
  rw [g1]

end NT
