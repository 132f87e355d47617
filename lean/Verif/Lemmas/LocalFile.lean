import Verif.Lemmas.Local
import Verif.Lemmas.Attribute

/-! Operations depend only on the bytes of the structures they work on: files, attributes and their values. -/

namespace NT

open Spec

/-- The end of an operation on a value and the device. -/
theorem On.done3 {α σ : Type} {img : Bytes} {S : Nat → Prop} {J : σ → Prop} {I : α → Prop} (r : Res α) (s : σ) (hs : J s)
    (hr : IfOk I r) : On img S mk3 (fun b => J b.2 ∧ IfOk I b.1) (fun d => (r, s, d)) :=
  On.done (mk := mk3) (r, s) ⟨hs, hr⟩

/-- The same, when nothing is claimed about the value. -/
theorem On.done3T {α σ : Type} {img : Bytes} {S : Nat → Prop} (r : Res α) (s : σ) :
    On img S mk3 (fun b => (fun _ => True) b.2 ∧ IfOk (fun _ => True) b.1) (fun d => (r, s, d)) :=
  On.done (mk := mk3) (r, s) ⟨trivial, .all⟩

theorem OnD.witness {α : Type} {img : Bytes} {S : Nat → Prop} {I : α → Prop} {p : StM Dev α} (h : OnD img S I p) :
    OnD img S (fun a => I a ∧ ∃ d d', d.img = img ∧ p d = (.ok a, d')) p := by
  intro d e h1 h2
  obtain ⟨b, d', e', g1, g2, g3, g4, g5⟩ := h d e h1 h2
  exact ⟨b, d', e', g1, g2, g3, g4, fun a ha => ⟨g5 a ha, d, d', h1, by rw [g1, ha]⟩⟩

/-- The place of one record: the MFT's own record, and wherever the MFT says that the record is. -/
theorem Ntfs.file_on' {n : Ntfs} {img : Bytes} {S : Nat → Prop} (number : Nat)
    (hm : ∀ p, n.mftPosition = some p → Span S p n.fileRecordSize)
    (hr : ∀ p, n.mftPosition = some p → ∀ d mft d', d.img = img → NFile.new n p 0 d = (.ok mft, d') →
      ∀ a v, mft.findResidentAttribute .data none none = .ok a → a.simpleValue = .ok v →
      number * n.fileRecordSize < U64 →
      ∀ m v' q, v.seek (.start (number * n.fileRecordSize)) = (.ok m, v') → v'.dataPosition = some q →
      Span S q n.fileRecordSize) :
    OnD img S (fun _ => True) (n.file number) := by
  unfold Ntfs.file
  refine .bindL fun off hoff => ?_
  have hoff' : off = number * n.fileRecordSize ∧ off < U64 := by
    unfold checkedMulU64 at hoff
    split at hoff
    · cases hoff; exact ⟨rfl, by assumption⟩
    · cases hoff
  obtain ⟨rfl, hlt⟩ := hoff'
  cases hp : n.mftPosition with
  | none => exact .die _
  | some p =>
    dsimp only
    refine .bind' (NFile.new_on n 0 (hm p hp)) fun mft _ hw => ?_
    obtain ⟨d, d', hd, hmft⟩ := hw
    refine .bindL fun a ha => .bindL fun v hv => ?_
    have hrec := hr p hp d mft d' hd hmft a v ha hv hlt
    generalize v.seek (.start (number * n.fileRecordSize)) = q at hrec
    obtain ⟨x, v'⟩ := q
    cases x with
    | ok m =>
      dsimp only
      cases hq : v'.dataPosition with
      | none => exact .fail _
      | some q => exact NFile.new_on n number (hrec m v' q rfl hq)
    | err x => exact .fail _
    | panic x => exact .die _
    | diverge => exact .lift fun _ h => nomatch h

section Covered

variable {n : Ntfs} {img : Bytes} {S : Nat → Prop}

theorem Ntfs.file_on (hc : Covers n img S) (number : Nat) : OnD img S (FileIn n S) (n.file number) := by
  refine (Ntfs.file_on' number hc.mft fun p hp d mft d' hd hmft a v ha hv hlt m v' q hs hq =>
    hc.records p hp d mft d' hd hmft a v ha hv _ hlt m v' q hs hq).witness.weaken ?_
  rintro f ⟨_, d, d', hd, hf⟩
  exact hc.files number d f d' hd hf

/-! ### Values of attributes -/

theorem NonRes.new_in {cs : Nat} {data : Bytes} {p : Pos} {size : Nat} (h : RunsIn S (DataRuns.new cs data p)) :
    IfOk (ValueIn S) (NonRes.new cs data p size) := by
  intro v hv
  have h0 : ValueIn S { clusterSize := cs, data, position := p, runs := DataRuns.new cs data p, st := StreamState.new size } :=
    ⟨(fun _ h => nomatch h), h, h⟩
  have hn := h0.nextDataRun
  unfold NonRes.new at hv
  dsimp only at hv
  generalize NonRes.nextDataRun { clusterSize := cs, data := data, position := p, runs := DataRuns.new cs data p, st := StreamState.new size } = q at hv hn
  obtain ⟨x, v'⟩ := q
  cases x with
  | ok b => cases hv; exact hn
  | err e => cases hv
  | panic e => cases hv
  | diverge => cases hv

theorem Attr.nonResidentValue_in {a : Attr} (h : FileIn n S a.file) (ho : Own a.file a.offset) : IfOk (ValueIn S) a.nonResidentValue := by
  intro v hv
  unfold Attr.nonResidentValue at hv
  simp only [Res.bind_eq_ok] at hv
  obtain ⟨⟨data, p⟩, h1, size, _, h2⟩ := hv
  rw [h.volume] at h2
  exact NonRes.new_in (h.attrs a rfl ho data p h1) v h2

theorem Attr.simpleValue_in {a : Attr} (h : FileIn n S a.file) (ho : Own a.file a.offset) :
    IfOk (fun v => AnyIn n S (.simple v)) a.simpleValue := by
  intro v hv
  unfold Attr.simpleValue at hv
  simp only [Res.bind_eq_ok] at hv
  obtain ⟨b, _, hv⟩ := hv
  cases b with
  | true =>
    rw [if_pos rfl] at hv
    simp only [Res.bind_eq_ok] at hv
    obtain ⟨w, _, hv⟩ := hv
    cases hv
    trivial
  | false =>
    rw [if_neg (by decide)] at hv
    simp only [Res.bind_eq_ok] at hv
    obtain ⟨w, hw, hv⟩ := hv
    cases hv
    exact Attr.nonResidentValue_in h ho w hw

theorem AttrItem.toAttribute_in {i : AttrItem} (h : ItemIn n S i) : IfOk (AttrIn n S) i.toAttribute := by
  intro a ha
  unfold AttrItem.toAttribute at ha
  cases hv : i.valueFile with
  | some f =>
    rw [hv] at ha
    obtain ⟨rfl, _⟩ := Attr.new_ok_iff.1 ha
    exact ⟨h.valueFile f hv, h.valueOwn f hv, h.list⟩
  | none =>
    rw [hv] at ha
    obtain ⟨rfl, _⟩ := Attr.new_ok_iff.1 ha
    exact ⟨h.file, h.own hv, h.list⟩

/-! ### Attribute lists -/

theorem ListEntry.new_on {σ : Type} {J : σ → Prop} {re : Nat → StM (σ × Dev) Bytes}
    (h : ∀ k, OnS img S J (fun _ => True) (re k)) (p : Pos) : OnS img S J (fun _ => True) (ListEntry.new re p) :=
  .bind (h _) fun _ _ => .bindL fun _ _ => .bindL fun _ _ => .bind (h _) fun _ _ => .pure trivial

theorem AttrList.nextNonResident_on {v : NonRes} (hv : ValueIn S v) :
    On img S mk3 (fun b => ValueIn S b.2) (fun d => AttrList.nextNonResident v d) := by
  unfold AttrList.nextNonResident
  refine .ite (fun _ => .done (Res.ok _, _) hv) fun _ => ?_
  refine On.step (ListEntry.new_on (NonRes.readExactAttached_on img S) v.dataPosition v hv) ?_
  rintro ⟨x, v'⟩ hb _
  cases x with
  | ok e =>
    refine ⟨_, fun d d' h => by rw [h], ?_⟩
    dsimp only
    have hs := hv.seek (.current e.length)
    generalize v.seek (.current e.length) = q at hs
    obtain ⟨x, w⟩ := q
    cases x with
    | ok m => exact .done (Res.ok _, _) hs
    | err m => exact .done (Res.err _, _) hs
    | panic m => exact .done (Res.panic _, _) hs
    | diverge => exact .done (Res.diverge, _) hs
  | err e => exact ⟨_, fun d d' h => by rw [h], .done (Res.err e, v) hv⟩
  | panic e => exact ⟨_, fun d d' h => by rw [h], .done (Res.panic e, v) hv⟩
  | diverge => exact ⟨_, fun d d' h => by rw [h], .done (Res.diverge, v) hv⟩

theorem AttrList.next_on (img : Bytes) (S : Nat → Prop) : OnS img S (ListIn S) (fun _ => True) AttrList.next := by
  intro l hl
  cases l with
  | resident s p =>
    exact On.done (mk := mk3) ((AttrList.next (.resident s p, ⟨[], 0, []⟩)).1,
      (AttrList.next (.resident s p, ⟨[], 0, []⟩)).2.1) ⟨trivial, .all⟩
  | nonResident v =>
    refine On.step (AttrList.nextNonResident_on hl) ?_
    rintro ⟨x, v'⟩ hv' _
    refine ⟨_, fun d d' h => ?_, .done (x, AttrList.nonResident v') ⟨(show ValueIn S v' from hv'), .all⟩⟩
    unfold AttrList.next
    dsimp only
    rw [h]

/-! ### Values in several attributes -/

theorem Spec.PartsIn.withConnected {v : ALVal} (h : PartsIn n S v) {c : Option AttrList}
    (hc : ∀ l, c = some l → ListIn S l) : PartsIn n S { v with connected := c } :=
  ⟨h.volume, h.initial, hc, h.current, h.next⟩

theorem Spec.PartsIn.withStream {v : ALVal} (h : PartsIn n S v) {st : StreamState} (hs : StreamIn S st) :
    PartsIn n S { v with st := st } := ⟨h.volume, h.initial, h.connected, hs, h.next⟩

theorem ALVal.nextConnected_on (img : Bytes) : OnS img S (PartsIn n S) (fun _ => True) ALVal.nextConnected := by
  intro v hv
  unfold ALVal.nextConnected
  dsimp only
  cases hc : v.connected with
  | none => exact .done (Res.ok none, v) ⟨hv, .all⟩
  | some l =>
    dsimp only
    refine On.step (AttrList.next_on img S l (hv.connected l hc)) ?_
    rintro ⟨x, l'⟩ ⟨hl', _⟩ _
    have h1 : PartsIn n S { v with connected := some l' } := hv.withConnected fun l h => by cases h; exact hl'
    have h0 : PartsIn n S { v with connected := none } := hv.withConnected fun l h => nomatch h
    cases x with
    | ok o =>
      cases o with
      | none => exact ⟨_, fun d d' h => by rw [h], .done (Res.ok none, { v with connected := some l' }) ⟨h1, .all⟩⟩
      | some e =>
        refine ⟨_, fun d d' h => by rw [h], ?_⟩
        dsimp only
        refine .ite (fun _ => ?_) fun _ => .done (Res.ok none, { v with connected := none }) ⟨h0, .all⟩
        cases e.ty with
        | ok t =>
          exact .ite (fun _ => .done (Res.ok (some e), { v with connected := some l' }) ⟨h1, .all⟩) fun _ =>
            .done (Res.ok none, { v with connected := none }) ⟨h0, .all⟩
        | err m => exact .done3 (Res.err _) { v with connected := some l' } h1 .all
        | panic m => exact .done3 (Res.panic _) { v with connected := some l' } h1 .all
        | diverge => exact .done3 (Res.diverge) { v with connected := some l' } h1 .all
    | err e =>
      refine ⟨_, fun d d' h => by rw [h], ?_⟩
      exact .done3 (Res.err e) { v with connected := some l' } h1 .all
    | panic e =>
      refine ⟨_, fun d d' h => by rw [h], ?_⟩
      exact .done3 (Res.panic e) { v with connected := some l' } h1 .all
    | diverge =>
      refine ⟨_, fun d d' h => by rw [h], ?_⟩
      exact .done3 (Res.diverge) { v with connected := some l' } h1 .all

theorem AttrsRaw.next_in {it : AttrsRaw} :
    it.next.2.file = it.file ∧ ∀ a, it.next.1 = some (.ok a) → a.file = it.file ∧ a.list = none := by
  unfold AttrsRaw.next
  cases getRange it.file.recordData it.start (it.start + 4) with
  | none => exact ⟨rfl, fun _ h => nomatch h⟩
  | some b =>
    dsimp only
    split
    · exact ⟨rfl, fun _ h => nomatch h⟩
    · cases ha : Attr.new it.file it.start none with
      | ok a =>
        obtain ⟨rfl, _⟩ := Attr.new_ok_iff.1 ha
        dsimp only
        cases Attr.attributeLength ⟨it.file, it.start, none⟩ with
        | ok len => exact ⟨rfl, fun a h => by cases h; exact ⟨rfl, rfl⟩⟩
        | err e => exact ⟨rfl, fun _ h => nomatch h⟩
        | panic e => exact ⟨rfl, fun _ h => nomatch h⟩
        | diverge => exact ⟨rfl, fun _ h => nomatch h⟩
      | err e => exact ⟨rfl, fun _ h => nomatch h⟩
      | panic e => exact ⟨rfl, fun _ h => nomatch h⟩
      | diverge => exact ⟨rfl, fun _ h => nomatch h⟩

theorem AttrsRaw.find_in {ty : AttrType} {name : Option (List Nat)} {i : Option Nat} {fuel : Nat} {it : AttrsRaw}
    {a : Attr} (h : AttrsRaw.find ty name i fuel it = .ok a) : a.file = it.file ∧ a.list = none ∧ Shows it a := by
  induction fuel generalizing it with
  | zero => cases h
  | succ fuel ih =>
    have hn := AttrsRaw.next_in (it := it)
    have hl : ∀ b, Shows it.next.2 b → Shows it b := fun _ h => .later h
    have hh : ∀ b it', it.next = (some (.ok b), it') → Shows it b := fun _ _ h => .here h
    unfold AttrsRaw.find at h
    generalize it.next = q at h hn hl hh
    obtain ⟨x, it'⟩ := q
    cases x with
    | none => cases h
    | some x =>
      obtain ⟨h1, h2⟩ := hn
      dsimp only at h h1
      simp only [Res.bind_eq_ok] at h
      obtain ⟨b, rfl, t, _, h⟩ := h
      split at h
      · exact ⟨h1 ▸ (ih h).1, (ih h).2.1, hl _ (ih h).2.2⟩
      · simp only [Res.bind_eq_ok] at h
        obtain ⟨im, _, h⟩ := h
        split at h
        · exact ⟨h1 ▸ (ih h).1, (ih h).2.1, hl _ (ih h).2.2⟩
        · simp only [Res.bind_eq_ok] at h
          obtain ⟨nm, _, h⟩ := h
          split at h
          · exact ⟨h1 ▸ (ih h).1, (ih h).2.1, hl _ (ih h).2.2⟩
          · cases h
            exact ⟨(h2 a rfl).1, (h2 a rfl).2, hh a _ rfl⟩

theorem NFile.findResidentAttribute_in {f : NFile} {ty : AttrType} {name : Option (List Nat)} {i : Option Nat}
    {a : Attr} (h : f.findResidentAttribute ty name i = .ok a) : a.file = f ∧ a.list = none ∧ Own f a.offset := by
  unfold NFile.findResidentAttribute at h
  simp only [Res.bind_eq_ok] at h
  obtain ⟨it, h1, h⟩ := h
  have hf : it.file = f := by
    have h1 := h1
    unfold NFile.attributesRaw at h1
    simp only [Res.bind_eq_ok] at h1
    obtain ⟨_, _, _, _, h1⟩ := h1
    cases h1
    rfl
  obtain ⟨g1, g2, g3⟩ := AttrsRaw.find_in h
  exact ⟨hf ▸ g1, g2, it, a, h1, g3, rfl⟩

theorem ListEntry.toAttribute_in {e : ListEntry} {f : NFile} {a : Attr} (h : e.toAttribute f = .ok a) :
    a.file = f ∧ a.list = none ∧ Own f a.offset := by
  unfold ListEntry.toAttribute at h
  split at h
  · simp only [Res.bind_eq_ok] at h
    obtain ⟨_, _, h⟩ := h
    exact NFile.findResidentAttribute_in h
  · cases h

/-- What is kept of an attribute that has been opened. -/
def OpenIn (n : Ntfs) (S : Nat → Prop) (x : DataRun × AttrState) : Prop :=
  RunIn S x.1 ∧ ∀ s, x.2.runs = some s → ∀ at_ : Attr, at_.file = x.2.file → at_.offset = x.2.offset →
    ∀ data p, at_.nonResidentValueDataAndPosition = .ok (data, p) →
    RunsIn S (DataRuns.fromState n.clusterSize data p s)

theorem Attr.nonResident_same {a b : Attr} (h1 : a.file = b.file) (h2 : a.offset = b.offset) :
    a.nonResidentValueDataAndPosition = b.nonResidentValueDataAndPosition := by
  obtain ⟨f, o, l⟩ := a
  obtain ⟨f', o', l'⟩ := b
  dsimp only at h1 h2
  subst h1 h2
  rfl

theorem DataRuns.next_keeps (rs : DataRuns) :
    rs.next.2 = DataRuns.fromState rs.clusterSize rs.data rs.position rs.next.2.state := by
  unfold DataRuns.next DataRuns.fromState
  split
  · rfl
  · split
    · rfl
    · split <;> try rfl
      split <;> try rfl
      split <;> try rfl
      split <;> try rfl
      dsimp only
      split
      · split <;> try rfl
        split <;> rfl
      · rfl

theorem ALVal.openEntry_on (hc : Covers n img S) (e : ListEntry) :
    OnD img S (fun o => ∀ x, o = some x → OpenIn n S x) (ALVal.openEntry n e) := by
  unfold ALVal.openEntry
  refine .bind (Ntfs.file_on hc _) fun f hf => .bindL fun a ha => .bindL fun b _ => ?_
  obtain ⟨hfile, _, hown⟩ := ListEntry.toAttribute_in ha
  refine .ite (fun _ => .fail _) fun _ => .bindL fun x hx => ?_
  obtain ⟨data, p⟩ := x
  have hr := hf.attrs a hfile hown data p hx
  dsimp only
  have hn := RunsIn.next hr
  have hk := (DataRuns.new n.clusterSize data p).next_keeps
  have hy : ∀ r rs', (DataRuns.new n.clusterSize data p).next = (some (.ok r), rs') → RunIn S r :=
    fun r rs' e => hr r (.here e)
  generalize (DataRuns.new n.clusterSize data p).next = q at hn hy hk
  obtain ⟨x, runs⟩ := q
  cases x with
  | none => exact .pure fun _ h => nomatch h
  | some r =>
    refine .bindL fun run hrun => .pure ?_
    subst hrun
    rintro _ h
    cases h
    refine ⟨hy run _ rfl, fun s hs at_ h1 h2 data' p' h3 => ?_⟩
    cases hs
    rw [Attr.nonResident_same (b := a) (h1.trans hfile.symm) h2, hx] at h3
    cases h3
    dsimp only at hk hn
    have : DataRuns.fromState n.clusterSize data p runs.state = runs := hk.symm
    rw [this]
    exact hn

theorem ALVal.nextAttribute_on (hc : Covers n img S) :
    OnS img S (PartsIn n S) (fun _ => True) ALVal.nextAttribute := by
  unfold ALVal.nextAttribute
  refine .bind (ALVal.nextConnected_on img) fun o _ => ?_
  cases o with
  | none => exact .pure trivial
  | some e =>
    intro v hv
    have hvol := hv.volume
    subst hvol
    dsimp only
    refine On.step (ALVal.openEntry_on hc e) fun x hx _ => ?_
    cases x with
    | ok o =>
      cases o with
      | none => exact ⟨_, fun d d' h => by rw [h], .done (Res.ok false, v) ⟨hv, .all⟩⟩
      | some o =>
        refine ⟨_, fun d d' h => by rw [h], ?_⟩
        obtain ⟨h1, h2⟩ := hx _ rfl o rfl
        refine .done3 (Res.ok true) { v with attrState := some o.2, st := { v.st with run := some o.1 } } ?_ .all
        exact ⟨hv.volume, hv.initial, hv.connected, (fun r e => by cases e; exact h1), fun a e => by
          cases e; exact h2⟩
    | err e => exact ⟨_, fun d d' h => by rw [h], .done (Res.err e, v) ⟨hv, .all⟩⟩
    | panic e => exact ⟨_, fun d d' h => by rw [h], .done (Res.panic e, v) ⟨hv, .all⟩⟩
    | diverge => exact ⟨_, fun d d' h => by rw [h], .done (Res.diverge, v) ⟨hv, .all⟩⟩

theorem Spec.PartsIn.nextDataRun {v : ALVal} (h : PartsIn n S v) : PartsIn n S v.nextDataRun.2 := by
  have hvol := h.volume
  subst hvol
  unfold ALVal.nextDataRun
  cases ha : v.attrState with
  | none => exact h
  | some a =>
    dsimp only
    cases hs : a.runs with
    | none => exact h
    | some s =>
      have h1 : PartsIn v.ntfs S { v with attrState := some { a with runs := none } } :=
        ⟨h.volume, h.initial, h.connected, h.current, fun b e s hb => by cases e; cases hb⟩
      dsimp only
      generalize hq : ((do let at_ ← Attr.new a.file a.offset none; at_.nonResidentValueDataAndPosition :
        Res (Bytes × Pos))) = q
      cases q with
      | ok x =>
        obtain ⟨data, p⟩ := x
        simp only [Res.bind_eq_ok] at hq
        obtain ⟨at_, g1, g2⟩ := hq
        obtain ⟨rfl, _⟩ := Attr.new_ok_iff.1 g1
        have hr := h.next a ha s hs ⟨a.file, a.offset, none⟩ rfl rfl data p g2
        dsimp only
        have hn := RunsIn.next hr
        have hk := (DataRuns.fromState v.ntfs.clusterSize data p s).next_keeps
        have hy : ∀ r rs', (DataRuns.fromState v.ntfs.clusterSize data p s).next = (some (.ok r), rs') → RunIn S r :=
          fun r rs' e => hr r (.here e)
        generalize (DataRuns.fromState v.ntfs.clusterSize data p s).next = q at hn hy hk
        obtain ⟨x, runs⟩ := q
        cases x with
        | none => exact h1
        | some x =>
          cases x with
          | ok r =>
            refine ⟨h.volume, h.initial, h.connected, (fun r' e => by cases e; exact hy r _ rfl), ?_⟩
            intro b e t ht at_ k1 k2 data' p' k3
            cases e
            cases ht
            rw [Attr.nonResident_same (b := ⟨a.file, a.offset, none⟩) k1 k2, g2] at k3
            cases k3
            have : DataRuns.fromState v.ntfs.clusterSize data p runs.state = runs := hk.symm
            rw [this]
            exact hn
          | err e => exact h1
          | panic e => exact h1
          | diverge => exact h1
      | err e => exact h1
      | panic e => exact h1
      | diverge => exact h1

theorem ALVal.advance_on (hc : Covers n img S) {v : ALVal} (hv : PartsIn n S v) :
    On img S mk3 (fun b => PartsIn n S b.2) (fun d => v.advance d) := by
  unfold ALVal.advance
  have hn := hv.nextDataRun
  generalize v.nextDataRun = q at hn
  obtain ⟨x, v'⟩ := q
  cases x with
  | ok b =>
    cases b with
    | true => exact .done (Res.ok true, v') hn
    | false => exact (ALVal.nextAttribute_on hc v' hn).weaken fun _ h => h.1
  | err x => exact .done (Res.err x, v') hn
  | panic x => exact .done (Res.panic x, v') hn
  | diverge => exact .done (Res.diverge, v') hn

theorem ALVal.new_on (hc : Covers n img S) {l : AttrList} (hl : ListIn S l) (i : Nat) (t : AttrType) (size : Nat) :
    OnD img S (PartsIn n S) (ALVal.new n l i t size) := by
  unfold ALVal.new
  dsimp only
  refine On.step (ALVal.nextAttribute_on hc
    { ntfs := n, initial := l, connected := some l, inst := i, ty := t, dataSize := size,
      attrState := none, st := StreamState.new size } ?_) ?_
  · exact ⟨rfl, hl, (fun l' h => by cases h; exact hl), (fun _ h => nomatch h), fun _ h => nomatch h⟩
  · rintro ⟨x, v'⟩ ⟨hv, _⟩ _
    cases x with
    | ok b => exact ⟨_, fun d d' h => by rw [h], .done (Res.ok v') fun _ h => by cases h; exact hv⟩
    | err e => exact ⟨_, fun d d' h => by rw [h], .done (Res.err e) fun _ h => nomatch h⟩
    | panic e => exact ⟨_, fun d d' h => by rw [h], .done (Res.panic e) fun _ h => nomatch h⟩
    | diverge => exact ⟨_, fun d d' h => by rw [h], .done Res.diverge fun _ h => nomatch h⟩

theorem ALVal.readLoop_on (hc : Covers n img S) (fuel : Nat) {v : ALVal} (hv : PartsIn n S v) (buf : Bytes) (br : Nat) :
    On img S mk4 (fun b => PartsIn n S b.2.1) (fun d => ALVal.readLoop fuel v buf br d) := by
  induction fuel generalizing v buf br with
  | zero => exact .done (Res.diverge, _, _) hv
  | succ fuel ih =>
    unfold ALVal.readLoop
    refine .ite (fun _ => ?_) fun _ => .done (Res.ok _, _, _) hv
    refine On.step (readDataRun_on hv.current buf br) ?_
    rintro ⟨x, st', buf', br'⟩ hst _
    have hv1 := hv.withStream hst
    cases x with
    | ok b =>
      cases b with
      | true =>
        refine ⟨_, fun d d' h => by rw [h], ?_⟩
        exact ih hv1 _ _
      | false =>
        refine ⟨_, fun d d' h => by rw [h], ?_⟩
        dsimp only
        refine On.step (ALVal.advance_on hc hv1) ?_
        rintro ⟨x, v'⟩ hv' _
        cases x with
        | ok b =>
          cases b with
          | true =>
            refine ⟨_, fun d d' h => by rw [h], ?_⟩
            exact ih hv' _ _
          | false => exact ⟨_, fun d d' h => by rw [h], .done (Res.ok br', v', buf') hv'⟩
        | err e => exact ⟨_, fun d d' h => by rw [h], .done (Res.err e, v', buf') hv'⟩
        | panic e => exact ⟨_, fun d d' h => by rw [h], .done (Res.panic e, v', buf') hv'⟩
        | diverge => exact ⟨_, fun d d' h => by rw [h], .done (Res.diverge, v', buf') hv'⟩
    | err e => exact ⟨_, fun d d' h => by rw [h], .done (Res.err e, { v with st := st' }, buf') hv1⟩
    | panic e => exact ⟨_, fun d d' h => by rw [h], .done (Res.panic e, { v with st := st' }, buf') hv1⟩
    | diverge => exact ⟨_, fun d d' h => by rw [h], .done (Res.diverge, { v with st := st' }, buf') hv1⟩

theorem ALVal.read_on (hc : Covers n img S) {v : ALVal} (hv : PartsIn n S v) (buf : Bytes) :
    On img S mk4 (fun b => PartsIn n S b.2.1) (fun d => v.read buf d) := ALVal.readLoop_on hc _ hv buf 0

theorem ALVal.seekLoop_on (hc : Covers n img S) (fuel : Nat) {v : ALVal} (hv : PartsIn n S v) (pos : SeekFrom)
    (left : Nat) : On img S mk3 (fun b => PartsIn n S b.2) (fun d => ALVal.seekLoop fuel v pos left d) := by
  induction fuel generalizing v left with
  | zero => exact .done (Res.diverge, _) hv
  | succ fuel ih =>
    unfold ALVal.seekLoop
    refine .ite (fun _ => ?_) fun _ => .done (Res.ok _, _) hv
    have hst := seekDataRun_in hv.current pos left
    generalize v.st.seekDataRun pos left = q at hst
    obtain ⟨x, st', left'⟩ := q
    have hv1 := hv.withStream hst
    cases x with
    | ok b =>
      cases b with
      | true => exact .done (Res.ok _, _) hv1
      | false =>
        dsimp only
        refine On.step (ALVal.advance_on hc hv1) ?_
        rintro ⟨x, v'⟩ hv' _
        cases x with
        | ok b =>
          cases b with
          | true =>
            refine ⟨_, fun d d' h => by rw [h], ?_⟩
            exact ih hv' _
          | false =>
            exact ⟨_, fun d d' h => by rw [h], .done (Res.ok _, { v' with st := { v'.st with run := none } })
              (hv'.withStream (st := { v'.st with run := none }) fun _ h => nomatch h)⟩
        | err e => exact ⟨_, fun d d' h => by rw [h], .done (Res.err e, v') hv'⟩
        | panic e => exact ⟨_, fun d d' h => by rw [h], .done (Res.panic e, v') hv'⟩
        | diverge => exact ⟨_, fun d d' h => by rw [h], .done (Res.diverge, v') hv'⟩
    | err x => exact .done (Res.err _, _) hv1
    | panic x => exact .done (Res.panic _, _) hv1
    | diverge => exact .done (Res.diverge, _) hv1

theorem ALVal.rewind_on (hc : Covers n img S) {v : ALVal} (hv : PartsIn n S v) :
    On img S mk3 (fun b => PartsIn n S b.2) (fun d => v.rewind d) := by
  unfold ALVal.rewind
  refine On.step (ALVal.nextAttribute_on hc { v with connected := some v.initial, st := StreamState.new v.len } ?_) ?_
  · exact ⟨hv.volume, hv.initial, (fun l h => by cases h; exact hv.initial), (fun _ h => nomatch h), hv.next⟩
  · rintro ⟨x, v'⟩ ⟨hv', _⟩ _
    cases x with
    | ok b => exact ⟨_, fun d d' h => by rw [h], .done (Res.ok (), v') hv'⟩
    | err e => exact ⟨_, fun d d' h => by rw [h], .done (Res.err e, v') hv'⟩
    | panic e => exact ⟨_, fun d d' h => by rw [h], .done (Res.panic e, v') hv'⟩
    | diverge => exact ⟨_, fun d d' h => by rw [h], .done (Res.diverge, v') hv'⟩

theorem ALVal.seek_on (hc : Covers n img S) {v : ALVal} (hv : PartsIn n S v) (pos : SeekFrom) :
    On img S mk3 (fun b => PartsIn n S b.2) (fun d => v.seek pos d) := by
  unfold ALVal.seek
  generalize v.st.optimizeSeek pos v.len = q
  cases q with
  | err x => exact .done (Res.err _, _) hv
  | panic x => exact .done (Res.panic _, _) hv
  | diverge => exact .done (Res.diverge, _) hv
  | ok s =>
    cases s with
    | end_ n => exact .done (Res.panic _, _) hv
    | start m =>
      dsimp only
      refine On.step (ALVal.rewind_on hc hv) ?_
      rintro ⟨x, v1⟩ hv1 _
      cases x with
      | ok u =>
        refine ⟨_, fun d d' h => by rw [h], ?_⟩
        dsimp only
        refine On.step (ALVal.seekLoop_on hc v.runFuel hv1 (.start m) m) ?_
        rintro ⟨x, v2⟩ hv2 _
        cases x with
        | ok u =>
          exact ⟨_, fun d d' h => by rw [h],
            .done (Res.ok m, { v2 with st := { v2.st with streamPosition := m } })
              (hv2.withStream (st := { v2.st with streamPosition := m }) hv2.current)⟩
        | err e => exact ⟨_, fun d d' h => by rw [h], .done (Res.err e, v2) hv2⟩
        | panic e => exact ⟨_, fun d d' h => by rw [h], .done (Res.panic e, v2) hv2⟩
        | diverge => exact ⟨_, fun d d' h => by rw [h], .done (Res.diverge, v2) hv2⟩
      | err e => exact ⟨_, fun d d' h => by rw [h], .done (Res.err e, v1) hv1⟩
      | panic e => exact ⟨_, fun d d' h => by rw [h], .done (Res.panic e, v1) hv1⟩
      | diverge => exact ⟨_, fun d d' h => by rw [h], .done (Res.diverge, v1) hv1⟩
    | current m =>
      dsimp only
      refine .ite (fun _ => ?_) fun _ => .done (Res.panic _, _) hv
      refine On.step (ALVal.seekLoop_on hc v.runFuel hv (.current m) m.toNat) ?_
      rintro ⟨x, v2⟩ hv2 _
      cases x with
      | ok u =>
        refine ⟨_, fun d d' h => by rw [h], ?_⟩
        dsimp only
        refine .ite (fun _ => ?_) fun _ => .done (Res.panic _, _) hv2
        exact On.done (mk := mk3) (I := fun b => PartsIn n S b.2)
          (Res.ok _, { v2 with st := { v2.st with streamPosition := v2.st.streamPosition + m.toNat } })
          (hv2.withStream (st := { v2.st with streamPosition := v2.st.streamPosition + m.toNat }) hv2.current)
      | err e => exact ⟨_, fun d d' h => by rw [h], .done (Res.err e, v2) hv2⟩
      | panic e => exact ⟨_, fun d d' h => by rw [h], .done (Res.panic e, v2) hv2⟩
      | diverge => exact ⟨_, fun d d' h => by rw [h], .done (Res.diverge, v2) hv2⟩

/-! ### Any value -/

theorem Val.readFn_on (hc : Covers n img S) : OnRead img S (AnyIn n S) Val.readFn := by
  intro v hv buf
  match v with
  | .simple (.res r) =>
    exact On.done (mk := mkR) ((r.read buf).1, Val.simple (.res (r.read buf).2.1), (r.read buf).2.2) trivial
  | .simple (.nonRes v) =>
    refine On.step (NonRes.read_on (v := v) hv buf) ?_
    rintro ⟨x, v', buf'⟩ hv' _
    refine ⟨_, fun d d' h => ?_, .done (x, Val.simple (.nonRes v'), buf') (show ValueIn S v' from hv')⟩
    unfold Val.readFn Val.read SVal.read
    dsimp only
    rw [h]
  | .list v =>
    refine On.step (ALVal.read_on hc (v := v) hv buf) ?_
    rintro ⟨x, v', buf'⟩ hv' _
    refine ⟨_, fun d d' h => ?_, .done (x, Val.list v', buf') (show PartsIn n S v' from hv')⟩
    unfold Val.readFn Val.read
    dsimp only
    rw [h]

theorem Val.read_on (hc : Covers n img S) {v : Val} (hv : AnyIn n S v) (buf : Bytes) :
    On img S mk4 (fun b => AnyIn n S b.2.1) (fun d => v.read buf d) := by
  refine On.step (Val.readFn_on hc v hv buf) ?_
  rintro ⟨x, v', buf'⟩ hv' _
  refine ⟨_, fun d d' h => ?_, .done (x, v', buf') hv'⟩
  unfold Val.readFn at h
  dsimp only at h
  generalize v.read buf d = q at h
  obtain ⟨a, b, c, e⟩ := q
  simp only [mkR, Prod.mk.injEq] at h
  obtain ⟨rfl, ⟨rfl, rfl⟩, rfl⟩ := h
  rfl

theorem Val.seek_on (hc : Covers n img S) {v : Val} (hv : AnyIn n S v) (pos : SeekFrom) :
    On img S mk3 (fun b => AnyIn n S b.2) (fun d => v.seek pos d) := by
  match v with
  | .simple (.res r) =>
    exact On.done (mk := mk3) ((SVal.seek (.res r) pos).1, Val.simple (SVal.seek (.res r) pos).2) trivial
  | .simple (.nonRes v) =>
    exact On.done (mk := mk3) ((SVal.seek (.nonRes v) pos).1, Val.simple (SVal.seek (.nonRes v) pos).2)
      (Spec.ValueIn.seek hv pos)
  | .list v =>
    refine On.step (ALVal.seek_on hc (v := v) hv pos) ?_
    rintro ⟨x, v'⟩ hv' _
    refine ⟨_, fun d d' h => ?_, .done (x, Val.list v') (show PartsIn n S v' from hv')⟩
    unfold Val.seek
    dsimp only
    rw [h]

theorem Val.readExactAttached_on (hc : Covers n img S) (k : Nat) :
    OnS img S (AnyIn n S) (fun _ => True) (Val.readExactAttached k) := by
  intro v hv
  refine On.step (readExactLoop_on_fuel (Val.readFn_on hc) hv (List.replicate k 0)) ?_
  rintro ⟨x, s', buf'⟩ hs' _
  cases x with
  | ok u =>
    refine ⟨_, fun d d' h => ?_, .done (Res.ok buf', s') ⟨hs', .all⟩⟩
    unfold Val.readExactAttached Val.readExact
    dsimp only
    rw [h]
  | err e =>
    refine ⟨_, fun d d' h => ?_, .done (Res.err e.viaIo, s') ⟨hs', .all⟩⟩
    unfold Val.readExactAttached Val.readExact
    dsimp only
    rw [h]
  | panic e =>
    refine ⟨_, fun d d' h => ?_, .done (Res.panic e, s') ⟨hs', .all⟩⟩
    unfold Val.readExactAttached Val.readExact
    dsimp only
    rw [h]
  | diverge =>
    refine ⟨_, fun d d' h => ?_, .done (Res.diverge, s') ⟨hs', .all⟩⟩
    unfold Val.readExactAttached Val.readExact
    dsimp only
    rw [h]

/-- `read_exact` of a value into a new buffer, for any way to read values of this kind. -/
theorem Val.readInto_on' {J : Val → Prop} (hr : OnRead img S J Val.readFn) {v : Val} (hv : J v) (k : Nat) :
    OnD img S (fun _ => True) (v.readInto k) := by
  refine On.step (readExactLoop_on_fuel hr hv (List.replicate k 0)) ?_
  rintro ⟨x, s', buf'⟩ hs' _
  cases x with
  | ok u =>
    refine ⟨_, fun d d' h => ?_, .done (Res.ok buf') .all⟩
    unfold Val.readInto Val.readExact
    rw [h]
  | err e =>
    refine ⟨_, fun d d' h => ?_, .done (Res.err e) .all⟩
    unfold Val.readInto Val.readExact
    rw [h]
  | panic e =>
    refine ⟨_, fun d d' h => ?_, .done (Res.panic e) .all⟩
    unfold Val.readInto Val.readExact
    rw [h]
  | diverge =>
    refine ⟨_, fun d d' h => ?_, .done Res.diverge .all⟩
    unfold Val.readInto Val.readExact
    rw [h]

theorem Val.readInto_on (hc : Covers n img S) {v : Val} (hv : AnyIn n S v) (k : Nat) :
    OnD img S (fun _ => True) (v.readInto k) := Val.readInto_on' (Val.readFn_on hc) hv k

theorem Attr.value_on (hc : Covers n img S) {a : Attr} (ha : AttrIn n S a) : OnD img S (AnyIn n S) a.value := by
  unfold Attr.value
  cases hl : a.list with
  | none => exact .bindL fun v hv => .pure (Attr.simpleValue_in ha.file ha.own v hv)
  | some l =>
    dsimp only
    rw [ha.file.volume]
    exact .bindL fun _ _ => .bindL fun _ _ => .bindL fun _ _ =>
      .bind (ALVal.new_on hc (ha.list l hl) _ _ _) fun _ h => .pure h

theorem Attr.attributeList_on (hc : Covers n img S) {a : Attr} (ha : AttrIn n S a) :
    OnD img S (ListIn S) a.attributeList := by
  refine .bindL fun _ _ => .bind (Attr.value_on hc ha) fun v hv => .lift fun l hl => ?_
  match v, hv, hl with
  | .simple (.res r), _, hl => cases hl; trivial
  | .simple (.nonRes r), hv, hl => cases hl; exact hv
  | .list r, _, hl => cases hl

/-! ### The flattened attributes -/

theorem Attrs.itemOf_on (hc : Covers n img S) {it : Attrs} (hi : AttrsIn n S it) {l : AttrList} (hl : ListIn S l)
    (e : ListEntry) (t : AttrType) : OnD img S (fun x => ItemIn n S x.1) (it.itemOf l e t) := by
  unfold Attrs.itemOf ListEntry.toFile
  rw [hi.file.volume]
  refine .bind (Ntfs.file_on hc _) fun f hf => .bindL fun a ha => .bindL fun b _ => ?_
  have hown := (ListEntry.toAttribute_in ha).2.2
  refine .ite (fun _ => .pure ?_) fun _ => .pure ?_
  · exact ⟨hi.file, (fun g h => by cases h; exact hf), (fun h => nomatch h), (fun g h => by cases h; exact hown),
      fun _ h => nomatch h⟩
  · exact ⟨hi.file, (fun g h => by cases h; exact hf), (fun h => nomatch h), (fun g h => by cases h; exact hown),
      fun _ h => by cases h; exact hl⟩

/-- An item, if there is one. -/
def MaybeItem (n : Ntfs) (S : Nat → Prop) (o : Option AttrItem) : Prop := ∀ i, o = some i → ItemIn n S i

theorem Attrs.nextInList_on (hc : Covers n img S) (fuel : Nat) {l : AttrList} (hl : ListIn S l) :
    OnS img S (AttrsIn n S) (MaybeItem n S) (Attrs.nextInList fuel l) := by
  have no : ∀ {r : Res (Option AttrItem)}, (∀ i, r ≠ .ok (some i)) → IfOk (MaybeItem n S) r :=
    fun h o e i ei => absurd (ei ▸ e) (h i)
  induction fuel generalizing l with
  | zero => exact fun s hs => .done (Res.diverge, s) ⟨hs, no (fun _ h => nomatch h)⟩
  | succ fuel ih =>
    intro it hit
    unfold Attrs.nextInList
    dsimp only
    refine On.step (AttrList.next_on img S l hl) ?_
    rintro ⟨x, l'⟩ ⟨hl', _⟩ _
    have hi1 : ∀ k, AttrsIn n S { it with list := some l', skip := k } :=
      fun _ => ⟨hit.file, hit.own, fun l h => by cases h; exact hl'⟩
    cases x with
    | ok o =>
      cases o with
      | none =>
        refine ⟨_, fun d d' h => by rw [h], ?_⟩
        exact .done (Res.ok none, _) ⟨hi1 _, no (fun _ h => nomatch h)⟩
      | some e =>
        refine ⟨_, fun d d' h => by rw [h], ?_⟩
        dsimp only
        cases e.ty with
        | ok t =>
          dsimp only
          refine .ite (fun _ => ih hl' _ (hi1 _)) fun _ => .ite (fun _ => ih hl' _ (hi1 _)) fun _ => ?_
          refine On.step (Attrs.itemOf_on hc hit hl e t) fun x hx _ => ?_
          cases x with
          | ok item =>
            refine ⟨_, fun d d' h => by rw [h], ?_⟩
            refine .done (Res.ok (some item.1), _) ⟨hi1 _, fun o h i hi => ?_⟩
            cases h
            cases hi
            exact hx item rfl
          | err e =>
            refine ⟨_, fun d d' h => by rw [h], ?_⟩
            exact .done (Res.err e, _) ⟨hi1 _, no (fun _ h => nomatch h)⟩
          | panic e =>
            refine ⟨_, fun d d' h => by rw [h], ?_⟩
            exact .done (Res.panic e, _) ⟨hi1 _, no (fun _ h => nomatch h)⟩
          | diverge =>
            refine ⟨_, fun d d' h => by rw [h], ?_⟩
            exact .done (Res.diverge, _) ⟨hi1 _, no (fun _ h => nomatch h)⟩
        | err e => exact .done (Res.err e, _) ⟨hi1 _, no (fun _ h => nomatch h)⟩
        | panic e => exact .done (Res.panic e, _) ⟨hi1 _, no (fun _ h => nomatch h)⟩
        | diverge => exact .done (Res.diverge, _) ⟨hi1 _, no (fun _ h => nomatch h)⟩
    | err e =>
      refine ⟨_, fun d d' h => by rw [h], ?_⟩
      exact .done (Res.err e, _) ⟨hi1 _, no (fun _ h => nomatch h)⟩
    | panic e =>
      refine ⟨_, fun d d' h => by rw [h], ?_⟩
      exact .done (Res.panic e, _) ⟨hi1 _, no (fun _ h => nomatch h)⟩
    | diverge =>
      refine ⟨_, fun d d' h => by rw [h], ?_⟩
      exact .done (Res.diverge, _) ⟨hi1 _, no (fun _ h => nomatch h)⟩

theorem Attrs.nextFromList_on (hc : Covers n img S) :
    OnS img S (AttrsIn n S) (MaybeItem n S) Attrs.nextFromList := by
  intro it hit
  unfold Attrs.nextFromList
  dsimp only
  cases hl : it.list with
  | none => exact .done (Res.ok none, it) ⟨hit, fun o h i hi => by cases h; cases hi⟩
  | some l => exact Attrs.nextInList_on hc _ (hit.list l hl) it hit

theorem Attrs.nextLoop_on (hc : Covers n img S) (fuel : Nat) :
    OnS img S (AttrsIn n S) (MaybeItem n S) (Attrs.nextLoop fuel) := by
  have no : ∀ {r : Res (Option AttrItem)}, (∀ i, r ≠ .ok (some i)) → IfOk (MaybeItem n S) r :=
    fun h o e i ei => absurd (ei ▸ e) (h i)
  induction fuel with
  | zero => exact fun s hs => .done (Res.diverge, s) ⟨hs, no (fun _ h => nomatch h)⟩
  | succ fuel ih =>
    unfold Attrs.nextLoop
    refine .bind (Attrs.nextFromList_on hc) fun o ho => ?_
    cases o with
    | some item => exact .pure ho
    | none =>
      intro it hit
      dsimp only
      have hr := AttrsRaw.next_in (it := it.raw)
      have hl : ∀ b, Shows it.raw.next.2 b → Own it.raw.file b.offset := fun b h => hit.own b (.later h)
      have hh : ∀ b it', it.raw.next = (some (.ok b), it') → Own it.raw.file b.offset := fun b _ h => hit.own b (.here h)
      generalize it.raw.next = q at hr hl hh
      obtain ⟨x, raw'⟩ := q
      obtain ⟨hr1, hr2⟩ := hr
      have hi1 : AttrsIn n S { it with raw := raw' } := by
        refine ⟨?_, ?_, hit.list⟩
        · show FileIn n S raw'.file
          rw [hr1]
          exact hit.file
        · show ∀ a, Shows raw' a → Own raw'.file a.offset
          rw [hr1]
          exact hl
      cases x with
      | none => exact .done (Res.ok none, _) ⟨hi1, no (fun _ h => nomatch h)⟩
      | some x =>
        cases x with
        | ok a =>
          obtain ⟨ha1, ha2⟩ := hr2 a rfl
          have hown : Own it.raw.file a.offset := hh a _ rfl
          have ha : AttrIn n S a := ⟨ha1 ▸ hit.file, by rw [ha1]; exact hown, fun l h => by rw [ha2] at h; cases h⟩
          have hitem : ItemIn n S { file := it.raw.file, valueFile := none, offset := a.offset, list := none } :=
            ⟨hit.file, (fun _ h => nomatch h), (fun _ => hown), (fun _ h => nomatch h), fun _ h => nomatch h⟩
          have hok : IfOk (MaybeItem n S) (Res.ok (some (⟨it.raw.file, none, a.offset, none⟩ : AttrItem))) :=
            fun o h i hi => by cases h; cases hi; exact hitem
          dsimp only
          cases a.ty with
          | ok t =>
            by_cases ht : t = .attributeList
            · subst ht
              dsimp only
              refine On.step (Attr.attributeList_on hc ha) fun x hx _ => ?_
              cases x with
              | ok l =>
                refine ⟨_, fun d d' h => by rw [h], ?_⟩
                exact ih _ ⟨hi1.file, hi1.own, fun l' h => by cases h; exact hx l rfl⟩
              | err e =>
                refine ⟨_, fun d d' h => by rw [h], ?_⟩
                exact .done (Res.err e, _) ⟨hi1, no (fun _ h => nomatch h)⟩
              | panic e =>
                refine ⟨_, fun d d' h => by rw [h], ?_⟩
                exact .done (Res.panic e, _) ⟨hi1, no (fun _ h => nomatch h)⟩
              | diverge =>
                refine ⟨_, fun d d' h => by rw [h], ?_⟩
                exact .done (Res.diverge, _) ⟨hi1, no (fun _ h => nomatch h)⟩
            · cases t <;> first | exact absurd rfl ht | exact .done (Res.ok _, _) ⟨hi1, hok⟩
          | err e => exact .done (Res.ok _, _) ⟨hi1, hok⟩
          | panic e => exact .done (Res.panic e, _) ⟨hi1, no (fun _ h => nomatch h)⟩
          | diverge => exact .done (Res.diverge, _) ⟨hi1, no (fun _ h => nomatch h)⟩
        | err e => exact .done (Res.err e, _) ⟨hi1, no (fun _ h => nomatch h)⟩
        | panic e => exact .done (Res.panic e, _) ⟨hi1, no (fun _ h => nomatch h)⟩
        | diverge => exact .done (Res.diverge, _) ⟨hi1, no (fun _ h => nomatch h)⟩

theorem Attrs.next_on (hc : Covers n img S) : OnS img S (AttrsIn n S) (MaybeItem n S) Attrs.next :=
  fun it hit => Attrs.nextLoop_on hc _ it hit

theorem Attrs.search_on (hc : Covers n img S) {α : Type} {I : Option α → Prop} (hI : I none)
    {pick : AttrItem → Attr → StM Dev (Option α)}
    (hp : ∀ i a, ItemIn n S i → AttrIn n S a → OnD img S I (pick i a)) (fuel : Nat) :
    OnS img S (AttrsIn n S) I (Attrs.search pick fuel) := by
  induction fuel with
  | zero => exact fun s hs => .done (Res.diverge, s) ⟨hs, fun _ h => nomatch h⟩
  | succ fuel ih =>
    unfold Attrs.search
    refine .bind (Attrs.next_on hc) fun o ho => ?_
    cases o with
    | none => exact .pure hI
    | some item =>
      refine .bindL fun a ha => .bind (.onDev (hp _ _ (ho item rfl) (AttrItem.toAttribute_in (ho item rfl) a ha)))
        fun o ho => ?_
      cases o with
      | some x => exact .pure ho
      | none => exact ih

theorem NFile.attributesRaw_file {f : NFile} {it : AttrsRaw} (h : f.attributesRaw = .ok it) : it.file = f := by
  unfold NFile.attributesRaw at h
  simp only [Res.bind_eq_ok] at h
  obtain ⟨_, _, _, _, h⟩ := h
  cases h
  rfl

theorem NFile.attributes_in {f : NFile} (hf : FileIn n S f) {it : Attrs} (hat : f.attributes = .ok it) :
    AttrsIn n S it := by
  unfold NFile.attributes at hat
  simp only [Res.bind_eq_ok] at hat
  obtain ⟨raw, h1, h2⟩ := hat
  have hf' := NFile.attributesRaw_file h1
  cases h2
  refine ⟨hf' ▸ hf, fun a ha => ?_, fun _ h => nomatch h⟩
  show Own raw.file a.offset
  rw [hf']
  exact ⟨raw, a, h1, ha, rfl⟩

theorem NFile.search_on (hc : Covers n img S) {α : Type} {I : Option α → Prop} (hI : I none) {f : NFile}
    (hf : FileIn n S f) {pick : AttrItem → Attr → StM Dev (Option α)}
    (hp : ∀ i a, ItemIn n S i → AttrIn n S a → OnD img S I (pick i a)) (fuel : Nat) :
    OnD img S I (f.search pick fuel) := by
  unfold NFile.search
  cases hat : f.attributes with
  | ok it =>
    have hit := NFile.attributes_in hf hat
    refine On.step (Attrs.search_on hc hI hp fuel it hit) ?_
    rintro ⟨x, it'⟩ ⟨_, hx⟩ _
    refine ⟨_, fun d d' h => ?_, .done x hx⟩
    dsimp only
    rw [h]
  | err x => exact .done (Res.err x) fun _ h => nomatch h
  | panic x => exact .done (Res.panic x) fun _ h => nomatch h
  | diverge => exact .done Res.diverge fun _ h => nomatch h

theorem pick_in {c : Res (Option AttrItem)} {i : AttrItem} (hi : ItemIn n S i)
    (h : ∀ o, c = .ok o → o = none ∨ o = some i) : OnD img S (MaybeItem n S) (StM.lift c : StM Dev _) := by
  refine .lift fun o ho j hj => ?_
  rcases h o ho with rfl | rfl
  · cases hj
  · cases hj; exact hi

theorem NFile.dataItem_on (hc : Covers n img S) {f : NFile} (hf : FileIn n S f) (asked : List Nat) (fuel : Nat) :
    OnD img S (MaybeItem n S) (f.dataItem asked fuel) := by
  refine NFile.search_on hc (fun _ h => nomatch h) hf (fun i a hi _ => pick_in hi fun o ho => ?_) fuel
  unfold pickData at ho
  simp only [Res.bind_eq_ok] at ho
  obtain ⟨t, _, ho⟩ := ho
  split at ho
  · cases ho; exact .inl rfl
  · simp only [Res.bind_eq_ok] at ho
    obtain ⟨_, _, _, _, ho⟩ := ho
    split at ho <;> cases ho
    · exact .inr rfl
    · exact .inl rfl

theorem NFile.findAttribute_on (hc : Covers n img S) {f : NFile} (hf : FileIn n S f) (ty : AttrType)
    (name : Option (List Nat)) (fuel : Nat) : OnD img S (ItemIn n S) (f.findAttribute ty name fuel) := by
  unfold NFile.findAttribute
  refine .bind (NFile.search_on hc (I := MaybeItem n S) (fun _ h => nomatch h) hf
    (fun i a hi _ => pick_in hi fun o ho => ?_) fuel) fun o ho => ?_
  · unfold pickAttribute at ho
    simp only [Res.bind_eq_ok] at ho
    obtain ⟨t, _, ho⟩ := ho
    split at ho
    · cases ho; exact .inl rfl
    · simp only [Res.bind_eq_ok] at ho
      obtain ⟨_, _, ho⟩ := ho
      split at ho <;> cases ho
      · exact .inr rfl
      · exact .inl rfl
  · cases o with
    | some item => exact .pure (ho item rfl)
    | none => exact .fail _

end Covered

end NT
