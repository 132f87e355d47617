import Verif.Lemmas.TameFile
import Verif.Props.C05_List

/-! No panic on harmless volumes: `read_exact`, attribute lists and values. -/

namespace NT

open Spec

/-! ### `read_exact` -/

/-- `read` does not panic, keeps `I`, and does not claim more bytes than there is room for. -/
def ReadFn.Tame {σ : Type} (I : σ → Prop) (read : ReadFn σ) : Prop :=
  ∀ s buf, I s → (read s buf).1.NoPanic ∧ I (read s buf).2.1 ∧ (read s buf).2.2.length = buf.length ∧
    ∀ n, (read s buf).1 = .ok n → n ≤ buf.length

theorem readExactLoop_tame {σ : Type} {I : σ → Prop} {read : ReadFn σ} (h : read.Tame I) (fuel : Nat) (s : σ)
    (done buf : Bytes) (hs : I s) :
    (readExactLoop read fuel s done buf).1.NoPanic ∧ I (readExactLoop read fuel s done buf).2.1 ∧
      (readExactLoop read fuel s done buf).2.2.length = done.length + buf.length := by
  induction fuel generalizing s done buf with
  | zero => exact ⟨Res.noPanic_diverge, hs, List.length_append⟩
  | succ fuel ih =>
    unfold readExactLoop
    split
    · exact ⟨Res.noPanic_ok _, hs, List.length_append⟩
    obtain ⟨h1, h2, h3, h4⟩ := h s buf hs
    generalize read s buf = q at h1 h2 h3 h4
    obtain ⟨x, s', buf'⟩ := q
    dsimp only at h1 h2 h3 h4
    have hl : (done ++ buf').length = done.length + buf.length := by rw [List.length_append, h3]
    cases x with
    | ok n =>
      dsimp only
      have hn := h4 n rfl
      split
      · exact ⟨Res.noPanic_err _, h2, hl⟩
      · rw [if_pos (by omega)]
        have := ih s' (done ++ buf'.take n) (buf'.drop n) h2
        refine ⟨this.1, this.2.1, this.2.2.trans ?_⟩
        rw [List.length_append, List.length_take, List.length_drop]
        omega
    | err e =>
      dsimp only
      split
      · have := ih s' done buf' h2
        exact ⟨this.1, this.2.1, by rw [this.2.2, h3]⟩
      · exact ⟨Res.noPanic_err _, h2, hl⟩
    | panic p => exact absurd rfl (h1 p)
    | diverge => exact ⟨Res.noPanic_diverge, h2, hl⟩

theorem NonRes.readFn_tame (img : Bytes) : ReadFn.Tame (With NonRes.Bounded img) NonRes.readFn := by
  rintro ⟨v, d⟩ buf ⟨hv, hd⟩
  obtain ⟨h1, h2, h3⟩ := NonRes.read_tame hv buf d hd
  obtain ⟨b, g1, g2, _, _, _, _, g7⟩ :=
    readLoop_contract (buf.length + v.data.length + v.runs.data.length + 2) v buf 0 d (by omega)
  refine ⟨h1, ⟨h2, h3⟩, ?_, ?_⟩
  · show (NonRes.readLoop (buf.length + v.data.length + v.runs.data.length + 2) v buf 0 d).2.2.1.length = _
    rw [g2]
    exact overwrite_length (by omega)
  · intro n hn
    have := g7 n hn
    omega

theorem NonRes.readExactAttached_tame (img : Bytes) (n : Nat) :
    StM.Tame (With NonRes.Bounded img) (NonRes.readExactAttached n) fun b => b.length = n := by
  rintro ⟨v, d⟩ hI
  unfold NonRes.readExactAttached NonRes.readExact
  dsimp only
  have h := readExactLoop_tame (NonRes.readFn_tame img)
    ((List.replicate n (0 : UInt8)).length + d.sched.length + 1) (v, d) [] (List.replicate n 0) hI
  generalize readExactLoop NonRes.readFn ((List.replicate n (0 : UInt8)).length + d.sched.length + 1) (v, d) []
    (List.replicate n 0) = q at h
  obtain ⟨x, s, b⟩ := q
  obtain ⟨h1, h2, h3⟩ := h
  cases x with
  | ok u => exact .ok h2 (by simpa using h3)
  | err e => exact .err h2
  | panic p => exact absurd rfl (h1 p)
  | diverge => exact .diverge h2

theorem cursorReadExact_tame (n : Nat) :
    StM.Tame (fun _ => True) (cursorReadExact n) fun b => b.length = n := by
  intro c _
  unfold cursorReadExact
  split
  · exact .ok trivial (by rw [List.length_take]; omega)
  · exact .err trivial

/-! ### Attribute lists -/

theorem idxRange_noPanic {d : Bytes} {a b : Nat} (h : a ≤ b) (h' : b ≤ d.length) : (idxRange d a b).NoPanic := by
  rw [idxRange_ok h h']; exact Res.noPanic_ok _

theorem idxByte_noPanic {d : Bytes} {i : Nat} (h : i < d.length) : (idxByte d i).NoPanic := by
  unfold idxByte
  rw [List.getElem?_eq_getElem h]
  exact Res.noPanic_ok _

theorem ListEntry.ofHeader_noPanic {h : Bytes} (hl : h.length = 26) (p : Pos) : (ListEntry.ofHeader h p).NoPanic :=
  .bind (readLE_noPanic (by omega)) fun _ _ => .bind (readLE_noPanic (by omega)) fun _ _ =>
  .bind (idxByte_noPanic (by omega)) fun _ _ => .bind (readLE_noPanic (by omega)) fun _ _ =>
  .bind (idxRange_noPanic (by omega) (by omega)) fun _ _ => .bind (readLE_noPanic (by omega)) fun _ _ =>
  Res.noPanic_ok _

theorem ListEntry.ofHeader_length {h : Bytes} (p : Pos) {e : ListEntry} (he : ListEntry.ofHeader h p = .ok e) :
    e.length < 65536 := by
  unfold ListEntry.ofHeader at he
  simp only [Res.bind_eq_ok] at he
  obtain ⟨_, _, l, hl, _, _, _, _, _, _, _, _, he⟩ := he
  cases he
  dsimp only
  unfold readLE at hl
  split at hl
  · cases hl
    exact field_lt ‹_›
  · cases hl

theorem ListEntry.new_tame {σ : Type} {I : σ → Prop} {re : Nat → StM σ Bytes}
    (h : ∀ n, StM.Tame I (re n) fun b => b.length = n) (p : Pos) :
    StM.Tame I (ListEntry.new re p) fun e => e.length < 65536 := by
  unfold ListEntry.new
  refine .bind (h 26) fun b hb => .bind (Q := fun e => e.length < 65536)
    (.lift (ListEntry.ofHeader_noPanic hb p) fun e he => ListEntry.ofHeader_length p he) fun e he =>
    .bind (Q := fun _ => True) (.lift ?_ fun _ _ => trivial) fun _ _ => .bind (h _) fun _ _ => .pure he
  exact .ite (fun _ => Res.noPanic_err _) fun _ => Res.noPanic_ok _

theorem AttrList.next_tame (img : Bytes) :
    StM.Tame (With AttrList.Tame img) AttrList.next fun _ => True := by
  rintro ⟨l, d⟩ ⟨hl, hd⟩
  unfold AttrList.next
  cases l with
  | resident slice position =>
    dsimp only
    have : (AttrList.nextResident slice position).1.NoPanic := by
      unfold AttrList.nextResident
      split
      · exact Res.noPanic_ok _
      have h := ListEntry.new_tame cursorReadExact_tame position slice trivial
      generalize ListEntry.new cursorReadExact position slice = q at h
      obtain ⟨x, s⟩ := q
      cases x with
      | ok e =>
        dsimp only
        cases getRange slice e.length slice.length with
        | none => exact Res.noPanic_ok _
        | some r => exact Res.noPanic_ok _
      | err e => exact Res.noPanic_err _
      | panic p => exact h.not_panic
      | diverge => exact Res.noPanic_diverge
    exact ⟨this, ⟨trivial, hd⟩, fun _ _ => trivial⟩
  | nonResident v =>
    dsimp only
    unfold AttrList.nextNonResident
    split
    · exact .ok ⟨hl, hd⟩ trivial
    have h := ListEntry.new_tame (NonRes.readExactAttached_tame img) v.dataPosition (v, d) ⟨hl, hd⟩
    generalize ListEntry.new NonRes.readExactAttached v.dataPosition (v, d) = q at h
    obtain ⟨x, v1, d'⟩ := q
    have hd' := h.keeps.2
    cases x with
    | ok e =>
      dsimp only
      have he := h.val e rfl
      have h2 := NonRes.seek_tame hl (.current e.length) (by
        show -(I63 : Int) ≤ (e.length : Int) ∧ (e.length : Int) < I63
        omega)
      generalize v.seek (.current e.length) = q at h2
      obtain ⟨x, v'⟩ := q
      cases x with
      | ok m => exact .ok ⟨h2.2, hd'⟩ trivial
      | err e => exact .err ⟨h2.2, hd'⟩
      | panic p => exact absurd rfl (h2.1 p)
      | diverge => exact .diverge ⟨h2.2, hd'⟩
    | err e => exact .err ⟨hl, hd'⟩
    | panic p => exact h.not_panic
    | diverge => exact .diverge ⟨hl, hd'⟩

/-! ### Values that a list describes -/

/-- The stream state of a value of a harmless volume. -/
structure StreamState.Tame (s : StreamState) : Prop where
  pos : s.streamPosition < U64
  size : s.dataSize < U64
  cur : ∀ r p, s.run = some r → r.position = some p → p + r.allocatedSize ≤ U64

/-- The state of the current attribute of such a value. -/
structure AttrState.Tame (n : Vol) (a : AttrState) : Prop where
  tame : Attr.Tame n ⟨a.file, a.offset, none⟩
  nonResident : field a.file.recordData (a.offset + 8) 1 ≠ 0
  runs : ∀ s, a.runs = some s → s.previousLcn < U64 ∧
    ∀ data p, Attr.nonResidentValueDataAndPosition ⟨a.file, a.offset, none⟩ = .ok (data, p) →
      (DataRuns.fromState n.ntfs.clusterSize data p s).Fit

/-- A value of a harmless volume that an attribute list describes. -/
structure ALVal.Tame (n : Vol) (v : ALVal) : Prop where
  ntfs : n.ntfs.Like v.ntfs
  initial : v.initial.Tame
  connected : ∀ l, v.connected = some l → l.Tame
  size : v.dataSize < U64
  state : ∀ a, v.attrState = some a → a.Tame n
  st : v.st.Tame

theorem ListEntry.ty_noPanic (e : ListEntry) : e.ty.NoPanic := .ofOption _ _

theorem ALVal.nextConnected_tame (n : Vol) (img : Bytes) :
    StM.Tame (With (ALVal.Tame n) img) ALVal.nextConnected fun _ => True := by
  rintro ⟨v, d⟩ ⟨hv, hd⟩
  unfold ALVal.nextConnected
  dsimp only at hv hd ⊢
  cases hc : v.connected with
  | none => exact .ok ⟨hv, hd⟩ trivial
  | some l =>
    dsimp only
    have h := AttrList.next_tame img (l, d) ⟨hv.connected l hc, hd⟩
    generalize AttrList.next (l, d) = q at h
    obtain ⟨x, l', d'⟩ := q
    obtain ⟨hl', hd'⟩ := h.keeps
    have hv' : ALVal.Tame n { v with connected := some l' } :=
      ⟨hv.ntfs, hv.initial, fun l e => by cases e; exact hl', hv.size, hv.state, hv.st⟩
    have hv'' : ALVal.Tame n { v with connected := none } :=
      ⟨hv.ntfs, hv.initial, fun l e => (nomatch e), hv.size, hv.state, hv.st⟩
    cases x with
    | ok o =>
      cases o with
      | none => exact .ok ⟨hv', hd'⟩ trivial
      | some e =>
        dsimp only
        split
        · have ht := e.ty_noPanic
          generalize e.ty = t at ht
          cases t with
          | ok t =>
            dsimp only
            split
            · exact .ok ⟨hv', hd'⟩ trivial
            · exact .ok ⟨hv'', hd'⟩ trivial
          | err e => exact .err ⟨hv', hd'⟩
          | panic p => exact absurd rfl (ht p)
          | diverge => exact .diverge ⟨hv', hd'⟩
        · exact .ok ⟨hv'', hd'⟩ trivial
    | err e => exact .err ⟨hv', hd'⟩
    | panic p => exact h.not_panic
    | diverge => exact .diverge ⟨hv', hd'⟩

theorem ListEntry.toAttribute_tame {n : Vol} {e : ListEntry} {f : NFile} (h : f.Tame n)
    (hn : f.number = e.ref.fileRecordNumber) :
    (e.toAttribute f).NoPanic ∧ ∀ a, e.toAttribute f = .ok a → a.Tame n ∧ a.file = f ∧ a.list = none := by
  unfold ListEntry.toAttribute
  rw [if_pos hn]
  constructor
  · exact .bind e.ty_noPanic fun t _ => (NFile.findResident_tame h t none _).1
  · intro a ha
    obtain ⟨t, _, h2⟩ := Res.bind_eq_ok.mp ha
    have := (NFile.findResident_tame h t none (some e.inst)).2 a h2
    obtain ⟨pre, off, _, _, rfl, _⟩ := (C22_first_match f h.min t none _ a).1 h2
    exact ⟨this.1, rfl, rfl⟩

theorem DataRuns.next_state {r r' : DataRuns} {x : DataRun} (hp : r.state.previousLcn < U64)
    (h : r.next = (some (.ok x), r')) :
    r' = { r with state := r'.state } ∧ r'.state.previousLcn < U64 := by
  rcases r.next_cases hp with ⟨r1, h', _⟩ | ⟨e, h'⟩ | ⟨l, h', _⟩ | ⟨y, o, l, h', _, _, h4, _⟩
  · rw [h'] at h; cases h
  · rw [h'] at h; cases h
  · rw [h'] at h; cases h
  · rw [h'] at h; cases h; exact ⟨rfl, h4⟩

theorem DataRuns.next_noPanic {r : DataRuns} (hp : r.state.previousLcn < U64) :
    ∀ x, r.next.1 = some x → x.NoPanic := by
  rcases r.next_cases hp with ⟨r1, h', _⟩ | ⟨e, h'⟩ | ⟨l, h', _⟩ | ⟨y, o, l, h', _⟩ <;> rw [h'] <;>
    intro x hx <;> cases hx
  · exact Res.noPanic_err _
  · exact Res.noPanic_err _
  · exact Res.noPanic_ok _

theorem ALVal.openEntry_tame {n : Vol} {m : Ntfs} (H : n.Harmless) (hm : n.ntfs.Like m) (e : ListEntry) :
    StM.Tame (Dev.Has n.img) (ALVal.openEntry m e) fun o => ∀ run a, o = some (run, a) →
      AttrState.Tame n a ∧ ∀ p, run.position = some p → p + run.allocatedSize ≤ U64 := by
  unfold ALVal.openEntry
  refine .bind (Ntfs.file_tame H hm _) fun f hf => ?_
  have h0 := ListEntry.toAttribute_tame (e := e) hf.1 hf.2.1
  refine .bind (.lift h0.1 h0.2) fun a ha => ?_
  obtain ⟨ha, hfile, hlist⟩ := ha
  obtain ⟨f', off, l'⟩ := a
  dsimp only at hfile hlist
  subst hfile hlist
  refine .bind (Q := fun b => b = (field f'.recordData (off + 8) 1 == 0)) ?_ fun b hb => ?_
  · rw [ha.isResident]
    exact .lift (Res.noPanic_ok _) fun b hb => by cases hb; rfl
  refine .ite (fun _ => .fail _) fun hr => ?_
  have hr : field f'.recordData (off + 8) 1 ≠ 0 := by
    intro h'
    apply hr
    rw [hb, h']
    rfl
  have h1 := ha.nonResident hr
  refine .bind (.lift h1.1 (Q := fun x => Attr.nonResidentValueDataAndPosition ⟨f', off, none⟩ = .ok x)
    fun x hx => hx) fun x hx => ?_
  obtain ⟨data, p⟩ := x
  have hfit := DataRuns.new_fit p (h1.2.1 data p hx)
  dsimp only
  rw [hm.clusterSize]
  have hnp := DataRuns.next_noPanic (r := DataRuns.new n.ntfs.clusterSize data p) (show (0 : Nat) < U64 by decide)
  have hns := fun x r' => DataRuns.next_state (r := DataRuns.new n.ntfs.clusterSize data p) (x := x) (r' := r')
    (show (0 : Nat) < U64 by decide)
  have hf0 := hfit 0
  have hf1 := hfit.next
  rw [DataRuns.after] at hf0
  generalize hq : (DataRuns.new n.ntfs.clusterSize data p).next = q at hnp hns hf0 hf1
  obtain ⟨o, r'⟩ := q
  cases o with
  | none => exact .pure fun run a h => by cases h
  | some x =>
    dsimp only at hnp hf0 hf1 ⊢
    cases x with
    | ok run =>
      refine .bind (.lift (Res.noPanic_ok _) (Q := fun x => x = run) fun x h => by cases h; rfl) fun x hx' => .pure ?_
      subst hx'
      intro run' a' h
      cases h
      refine ⟨⟨ha, hr, fun s hs => ?_⟩, fun p' hp' => hf0 x p' rfl hp'⟩
      cases hs
      obtain ⟨g1, g2⟩ := hns x r' rfl
      refine ⟨g2, fun data' p' h' => ?_⟩
      dsimp only at h'
      rw [hx] at h'
      cases h'
      rw [show DataRuns.fromState n.ntfs.clusterSize data p r'.state = r' from g1.symm]
      exact hf1
    | err e => exact fun s hs => .err hs
    | panic p => exact absurd rfl (hnp _ rfl p)
    | diverge => exact fun s hs => .diverge hs

theorem ALVal.nextAttribute_tame {n : Vol} (H : n.Harmless) :
    StM.Tame (With (ALVal.Tame n) n.img) ALVal.nextAttribute fun _ => True := by
  unfold ALVal.nextAttribute
  refine .bind (ALVal.nextConnected_tame n n.img) fun o _ => ?_
  cases o with
  | none => exact .pure trivial
  | some e =>
    rintro ⟨v, d⟩ ⟨hv, hd⟩
    dsimp only
    have h := ALVal.openEntry_tame H hv.ntfs e d hd
    generalize ALVal.openEntry v.ntfs e d = q at h
    obtain ⟨x, d'⟩ := q
    have hd' := h.keeps
    cases x with
    | ok o =>
      cases o with
      | none => exact .ok ⟨hv, hd'⟩ trivial
      | some x =>
        obtain ⟨run, a⟩ := x
        obtain ⟨h1, h2⟩ := h.val _ rfl run a rfl
        refine .ok ⟨⟨hv.ntfs, hv.initial, hv.connected, hv.size, fun a' e => by cases e; exact h1,
          hv.st.pos, hv.st.size, fun r p e => by cases e; exact h2 p⟩, hd'⟩ trivial
    | err e => exact .err ⟨hv, hd'⟩
    | panic p => exact h.not_panic
    | diverge => exact .diverge ⟨hv, hd'⟩

theorem ALVal.nextDataRun_tame {n : Vol} {v : ALVal} (hv : v.Tame n) :
    v.nextDataRun.1.NoPanic ∧ v.nextDataRun.2.Tame n := by
  unfold ALVal.nextDataRun
  cases ha : v.attrState with
  | none => exact ⟨Res.noPanic_ok _, hv⟩
  | some a =>
    dsimp only
    cases hr : a.runs with
    | none => exact ⟨Res.noPanic_ok _, hv⟩
    | some s =>
      dsimp only
      have hat := hv.state a ha
      obtain ⟨hs, hfit⟩ := hat.runs s hr
      have hv1 : ALVal.Tame n { v with attrState := some { a with runs := none } } :=
        ⟨hv.ntfs, hv.initial, hv.connected, hv.size,
          fun a' e => by cases e; exact ⟨hat.tame, hat.nonResident, fun s e => by cases e⟩, hv.st⟩
      rw [show Attr.new a.file a.offset none = .ok ⟨a.file, a.offset, none⟩ from hat.tame.new, Res.bind_ok]
      have hnp := (hat.tame.nonResident hat.nonResident).1
      generalize hq : Attr.nonResidentValueDataAndPosition ⟨a.file, a.offset, none⟩ = q at hnp
      cases q with
      | ok x =>
        obtain ⟨data, p⟩ := x
        dsimp only
        have hfit := hfit data p hq
        rw [hv.ntfs.clusterSize]
        have hnp := DataRuns.next_noPanic (r := DataRuns.fromState n.ntfs.clusterSize data p s) hs
        have hns := fun x r' => DataRuns.next_state (r := DataRuns.fromState n.ntfs.clusterSize data p s) (x := x)
          (r' := r') hs
        have hf0 := hfit 0
        have hf1 := hfit.next
        rw [DataRuns.after] at hf0
        generalize (DataRuns.fromState n.ntfs.clusterSize data p s).next = q at hnp hns hf0 hf1
        obtain ⟨o, r'⟩ := q
        cases o with
        | none => exact ⟨Res.noPanic_ok _, hv1⟩
        | some x =>
          dsimp only at hnp hf0 hf1
          cases x with
          | ok run =>
            refine ⟨Res.noPanic_ok _, hv.ntfs, hv.initial, hv.connected, hv.size, fun a' e => ?_,
              hv.st.pos, hv.st.size, fun r p e => by cases e; exact hf0 run p rfl⟩
            cases e
            refine ⟨hat.tame, hat.nonResident, fun s' e => ?_⟩
            cases e
            obtain ⟨g1, g2⟩ := hns run r' rfl
            refine ⟨g2, fun data' p' h' => ?_⟩
            dsimp only at h'
            rw [hq] at h'
            cases h'
            rw [show DataRuns.fromState n.ntfs.clusterSize data p r'.state = r' from g1.symm]
            exact hf1
          | err e => exact ⟨Res.noPanic_err _, hv1⟩
          | panic p => exact absurd rfl (hnp _ rfl p)
          | diverge => exact ⟨Res.noPanic_diverge, hv1⟩
      | err e => exact ⟨Res.noPanic_err _, hv1⟩
      | panic p => exact absurd rfl (hnp p)
      | diverge => exact ⟨Res.noPanic_diverge, hv1⟩

theorem ALVal.advance_tame {n : Vol} (H : n.Harmless) {v : ALVal} (hv : v.Tame n) {d : Dev}
    (hd : d.Has n.img) : Out (With (ALVal.Tame n) n.img) (fun _ => True) (v.advance d) := by
  unfold ALVal.advance
  have h := ALVal.nextDataRun_tame hv
  generalize v.nextDataRun = q at h
  obtain ⟨x, v'⟩ := q
  obtain ⟨h1, h2⟩ := h
  cases x with
  | ok t =>
    cases t with
    | true => exact .ok ⟨h2, hd⟩ trivial
    | false => exact ALVal.nextAttribute_tame H (v', d) ⟨h2, hd⟩
  | err e => exact .err ⟨h2, hd⟩
  | panic p => exact absurd rfl (h1 p)
  | diverge => exact .diverge ⟨h2, hd⟩

theorem ALVal.new_tame {n : Vol} {m : Ntfs} (H : n.Harmless) (hm : n.ntfs.Like m) {l : AttrList} (hl : l.Tame)
    (i : Nat) (t : AttrType) {size : Nat} (hs : size < U64) :
    StM.Tame (Dev.Has n.img) (ALVal.new m l i t size) (ALVal.Tame n) := by
  intro d hd
  unfold ALVal.new
  dsimp only
  have h := ALVal.nextAttribute_tame H (⟨m, l, some l, i, t, size, none, StreamState.new size⟩, d)
    ⟨⟨hm, hl, fun l' e => by cases e; exact hl, hs, fun a e => (nomatch e),
      show (0 : Nat) < U64 by decide, hs, fun r p e => by cases e⟩, hd⟩
  generalize ALVal.nextAttribute _ = q at h
  obtain ⟨x, v', d'⟩ := q
  obtain ⟨h1, h2⟩ := h.keeps
  cases x with
  | ok t => exact .ok h2 h1
  | err e => exact .err h2
  | panic p => exact h.not_panic
  | diverge => exact .diverge h2

theorem ALVal.rewind_tame {n : Vol} (H : n.Harmless) {v : ALVal} (hv : v.Tame n) {d : Dev}
    (hd : d.Has n.img) : Out (With (ALVal.Tame n) n.img) (fun _ => True) (v.rewind d) := by
  unfold ALVal.rewind
  have h := ALVal.nextAttribute_tame H ({ v with connected := some v.initial, st := StreamState.new v.len }, d)
    ⟨⟨hv.ntfs, hv.initial, fun l' e => by cases e; exact hv.initial, hv.size, hv.state,
      show (0 : Nat) < U64 by decide, hv.size, fun r p e => by cases e⟩, hd⟩
  generalize ALVal.nextAttribute _ = q at h
  obtain ⟨x, v', d'⟩ := q
  cases x with
  | ok t => exact .ok h.keeps trivial
  | err e => exact .err h.keeps
  | panic p => exact h.not_panic
  | diverge => exact .diverge h.keeps

theorem ALVal.Tame.stream {n : Vol} {v : ALVal} (hv : v.Tame n) {s : StreamState} (hs : s.Tame) :
    ALVal.Tame n { v with st := s } :=
  ⟨hv.ntfs, hv.initial, hv.connected, hv.size, hv.state, hs⟩

theorem ALVal.readLoop_tame {n : Vol} (H : n.Harmless) (fuel : Nat) (v : ALVal) (buf : Bytes)
    (br : Nat) (d : Dev) (hv : v.Tame n) (hd : d.Has n.img) (hbr : br ≤ buf.length) :
    (ALVal.readLoop fuel v buf br d).1.NoPanic ∧ (ALVal.readLoop fuel v buf br d).2.1.Tame n ∧
      (ALVal.readLoop fuel v buf br d).2.2.2.Has n.img ∧
      (ALVal.readLoop fuel v buf br d).2.2.1.length = buf.length ∧
      ∀ m, (ALVal.readLoop fuel v buf br d).1 = .ok m → m ≤ buf.length := by
  induction fuel generalizing v buf br d with
  | zero => exact ⟨Res.noPanic_diverge, hv, hd, rfl, fun m h => by cases h⟩
  | succ fuel ih =>
    unfold ALVal.readLoop
    by_cases hlt : br < buf.length
    case neg => rw [if_neg hlt]; exact ⟨Res.noPanic_ok _, hv, hd, rfl, fun m h => by cases h; exact hbr⟩
    rw [if_pos hlt]
    have hpl := readDataRun_place v.st buf br d
    have hdv := readDataRun_has v.st buf br d hd
    rcases readDataRun_cases v.st buf br d hbr with ⟨s', b, d', e, h1, h2, h3⟩ | ⟨e, d', he⟩ |
        ⟨e, r, p, hr, hp, hlt2, hov⟩
    · rw [e] at hpl hdv ⊢
      have hs' : s'.Tame := by
        refine ⟨?_, ?_, cur_of_place hpl hv.st.cur⟩
        · have := hv.st.pos; have := hv.st.size
          rw [h3]; dsimp only; omega
        · rw [h3]; exact hv.st.size
      have hol : (overwrite buf br b).length = buf.length := overwrite_length h1
      by_cases hb0 : 0 < b.length
      · rw [show (decide (0 < b.length)) = true from by simpa using hb0]
        dsimp only
        have := ih _ (overwrite buf br b) (br + b.length) d' (hv.stream hs') hdv (by omega)
        rw [hol] at this
        exact this
      · rw [show (decide (0 < b.length)) = false from by simpa using hb0]
        dsimp only
        have h := ALVal.advance_tame H (hv.stream hs') hdv
        generalize ALVal.advance { v with st := s' } d' = q at h
        obtain ⟨x, v', d''⟩ := q
        obtain ⟨k1, k2⟩ := h.keeps
        cases x with
        | ok t =>
          cases t with
          | true =>
            have := ih v' (overwrite buf br b) (br + b.length) d'' k1 k2 (by omega)
            rw [hol] at this
            exact this
          | false => exact ⟨Res.noPanic_ok _, k1, k2, hol, fun m h => by cases h; exact h1⟩
        | err e => exact ⟨Res.noPanic_err _, k1, k2, hol, fun m h => by cases h⟩
        | panic p => exact h.not_panic
        | diverge => exact ⟨Res.noPanic_diverge, k1, k2, hol, fun m h => by cases h⟩
    · rw [he] at hpl hdv ⊢
      exact ⟨Res.noPanic_err _, hv, hdv, rfl, fun m h => by cases h⟩
    · exfalso
      have := hv.st.cur r p hr hp
      omega

theorem ALVal.read_tame {n : Vol} (H : n.Harmless) {v : ALVal} (hv : v.Tame n) (buf : Bytes)
    {d : Dev} (hd : d.Has n.img) :
    (v.read buf d).1.NoPanic ∧ (v.read buf d).2.1.Tame n ∧ (v.read buf d).2.2.2.Has n.img ∧
      (v.read buf d).2.2.1.length = buf.length ∧ ∀ m, (v.read buf d).1 = .ok m → m ≤ buf.length :=
  ALVal.readLoop_tame H _ v buf 0 d hv hd (Nat.zero_le _)

theorem StreamState.seekDataRun_tame {s : StreamState} (hs : s.Tame) {pos : SeekFrom} (hpos : ∀ n, pos ≠ .end_ n)
    (left : Nat) : (s.seekDataRun pos left).1.NoPanic ∧ (s.seekDataRun pos left).2.1.Tame ∧
      (s.seekDataRun pos left).2.1.streamPosition = s.streamPosition := by
  have hpl := seekDataRun_place s pos left
  have hsc : ∀ (r : DataRun) (p : SeekFrom), (r.seek p).1.NoPanic := by
    intro r p
    change (seekContiguous r.streamPosition r.allocatedSize p).1.NoPanic
    unfold seekContiguous
    repeat' first | exact Res.noPanic_ok _ | exact Res.noPanic_err _ | split
  have h : (s.seekDataRun pos left).1.NoPanic ∧ (s.seekDataRun pos left).2.1.streamPosition = s.streamPosition ∧
      (s.seekDataRun pos left).2.1.dataSize = s.dataSize := by
    unfold StreamState.seekDataRun
    split
    · exact ⟨Res.noPanic_ok _, rfl, rfl⟩
    · rename_i r hr
      split
      · split
        · have := hsc r (.start left)
          split <;> rename_i heq <;> rw [heq] at this <;>
            first
              | exact ⟨Res.noPanic_ok _, rfl, rfl⟩
              | exact ⟨Res.noPanic_err _, rfl, rfl⟩
              | exact ⟨Res.noPanic_diverge, rfl, rfl⟩
              | exact absurd rfl (this _)
        · have := hsc r (.current (toI64 left))
          split <;> rename_i heq <;> rw [heq] at this <;>
            first
              | exact ⟨Res.noPanic_ok _, rfl, rfl⟩
              | exact ⟨Res.noPanic_err _, rfl, rfl⟩
              | exact ⟨Res.noPanic_diverge, rfl, rfl⟩
              | exact absurd rfl (this _)
        · exact absurd rfl (hpos _)
      · exact ⟨Res.noPanic_ok _, rfl, rfl⟩
  refine ⟨h.1, ⟨?_, ?_, cur_of_place hpl hs.cur⟩, h.2.1⟩
  · rw [h.2.1]; exact hs.pos
  · rw [h.2.2]; exact hs.size

theorem ALVal.seekLoop_tame {n : Vol} (H : n.Harmless) (fuel : Nat) (v : ALVal) (pos : SeekFrom)
    (left : Nat) (d : Dev) (hv : v.Tame n) (hd : d.Has n.img) (hpos : ∀ n, pos ≠ .end_ n) :
    Out (With (fun w : ALVal => w.Tame n ∧ w.st.streamPosition = v.st.streamPosition) n.img) (fun _ => True)
      (ALVal.seekLoop fuel v pos left d) := by
  induction fuel generalizing v left d with
  | zero => exact .diverge ⟨⟨hv, rfl⟩, hd⟩
  | succ fuel ih =>
    unfold ALVal.seekLoop
    split
    case isFalse => exact .ok ⟨⟨hv, rfl⟩, hd⟩ trivial
    have h := StreamState.seekDataRun_tame hv.st hpos left
    generalize v.st.seekDataRun pos left = q at h
    obtain ⟨x, s', left'⟩ := q
    obtain ⟨h1, h2, h3⟩ := h
    dsimp only at h1 h2 h3
    have hv' := hv.stream h2
    cases x with
    | ok t =>
      cases t with
      | true => exact .ok ⟨⟨hv', h3⟩, hd⟩ trivial
      | false =>
        dsimp only
        have h := ALVal.advance_tame H hv' hd
        have hk := (ALVal.advance_kept { v with st := s' } d).position
        generalize ALVal.advance { v with st := s' } d = q at h hk
        obtain ⟨x, v', d'⟩ := q
        obtain ⟨k1, k2⟩ := h.keeps
        dsimp only at hk k1 k2
        have hp : v'.st.streamPosition = v.st.streamPosition := hk.trans h3
        cases x with
        | ok t =>
          cases t with
          | true =>
            have := ih v' left' d' k1 k2
            rw [hp] at this
            exact this
          | false =>
            exact .ok ⟨⟨k1.stream ⟨k1.st.pos, k1.st.size, fun r p e => (nomatch e)⟩, hp⟩, k2⟩ trivial
        | err e => exact .err ⟨⟨k1, hp⟩, k2⟩
        | panic p => exact h.not_panic
        | diverge => exact .diverge ⟨⟨k1, hp⟩, k2⟩
    | err e => exact .err ⟨⟨hv', h3⟩, hd⟩
    | panic p => exact absurd rfl (h1 p)
    | diverge => exact .diverge ⟨⟨hv', h3⟩, hd⟩

theorem ALVal.seek_tame {n : Vol} (H : n.Harmless) {v : ALVal} (hv : v.Tame n) {pos : SeekFrom}
    (hp : pos.InRange) {d : Dev} (hd : d.Has n.img) :
    Out (With (ALVal.Tame n) n.img) (fun _ => True) (v.seek pos d) := by
  unfold ALVal.seek ALVal.len
  rw [optimizeSeek_spec v.st pos v.dataSize hp hv.st.pos hv.size]
  generalize seekTarget v.st.streamPosition v.dataSize pos = t
  by_cases ht : validTarget t
  case neg => rw [if_neg ht]; exact .err ⟨hv, hd⟩
  rw [if_pos ht]
  simp only [validTarget] at ht
  have hvp := hv.st.pos
  by_cases hc : v.st.streamPosition ≤ t.toNat ∧ t.toNat - v.st.streamPosition < I63
  · rw [if_pos hc]
    dsimp only
    rw [if_pos (by omega), show (((t.toNat - v.st.streamPosition : Nat) : Int)).toNat =
          t.toNat - v.st.streamPosition by omega]
    have h := ALVal.seekLoop_tame H v.runFuel v (.current ((t.toNat - v.st.streamPosition : Nat) : Int))
      (t.toNat - v.st.streamPosition) d hv hd (fun n h => by cases h)
    generalize ALVal.seekLoop _ _ _ _ _ = q at h
    obtain ⟨x, v2, d2⟩ := q
    obtain ⟨⟨k1, k2⟩, k3⟩ := h.keeps
    dsimp only at k1 k2 k3
    cases x with
    | ok u =>
      dsimp only
      have hlt : v2.st.streamPosition + (t.toNat - v.st.streamPosition) < U64 := by rw [k2]; omega
      rw [if_pos hlt]
      exact .ok ⟨k1.stream ⟨hlt, k1.st.size, k1.st.cur⟩, k3⟩ trivial
    | err e => exact .err ⟨k1, k3⟩
    | panic p => exact h.not_panic
    | diverge => exact .diverge ⟨k1, k3⟩
  · rw [if_neg hc]
    dsimp only
    have h := ALVal.rewind_tame H hv hd
    generalize v.rewind d = q at h
    obtain ⟨x, v1, d1⟩ := q
    have hk := h.keeps
    cases x with
    | ok u =>
      dsimp only
      have h := ALVal.seekLoop_tame H v.runFuel v1 (.start t.toNat) t.toNat d1 hk.1 hk.2 (fun n h => by cases h)
      generalize ALVal.seekLoop _ _ _ _ _ = q at h
      obtain ⟨x, v2, d2⟩ := q
      obtain ⟨⟨k1, k2⟩, k3⟩ := h.keeps
      dsimp only at k1 k2 k3
      cases x with
      | ok u => exact .ok ⟨k1.stream ⟨by dsimp only; omega, k1.st.size, k1.st.cur⟩, k3⟩ trivial
      | err e => exact .err ⟨k1, k3⟩
      | panic p => exact h.not_panic
      | diverge => exact .diverge ⟨k1, k3⟩
    | err e => exact .err hk
    | panic p => exact h.not_panic
    | diverge => exact .diverge hk

/-! ### Values -/

/-- A value of a harmless volume. -/
def Val.Tame (n : Vol) : Val → Prop
  | .simple v => v.Tame
  | .list v => v.Tame n

theorem Val.read_tame {n : Vol} (H : n.Harmless) : ReadFn.Tame (With (Val.Tame n) n.img) Val.readFn := by
  rintro ⟨v, d⟩ buf ⟨hv, hd⟩
  cases v with
  | simple v =>
    cases v with
    | res v =>
      have h := fun n v' b => C05_resident v v' buf b n
      rw [ResVal.read_eq] at h
      have h := h _ _ _ rfl
      refine ⟨?_, ⟨trivial, hd⟩, ?_, fun n hn => ?_⟩
      · show (v.read buf).1.NoPanic
        rw [ResVal.read_eq]
        exact Res.noPanic_ok _
      · show (v.read buf).2.2.length = _
        rw [ResVal.read_eq]
        exact h.2.1
      · change (v.read buf).1 = _ at hn
        rw [ResVal.read_eq] at hn
        cases hn
        exact h.1
    | nonRes v =>
      obtain ⟨h1, h2, h3, h4⟩ := NonRes.readFn_tame n.img (v, d) buf ⟨hv, hd⟩
      exact ⟨h1, h2, h3, h4⟩
  | list v =>
    obtain ⟨h1, h2, h3, h4, h5⟩ := ALVal.read_tame H hv buf hd
    exact ⟨h1, ⟨h2, h3⟩, h4, h5⟩

theorem Val.seek_tame {n : Vol} (H : n.Harmless) {v : Val} (hv : v.Tame n) {pos : SeekFrom}
    (hp : pos.InRange) {d : Dev} (hd : d.Has n.img) :
    Out (With (Val.Tame n) n.img) (fun _ => True) (v.seek pos d) := by
  cases v with
  | simple v =>
    obtain ⟨h1, h2⟩ := SVal.seek_tame hv pos hp
    exact ⟨h1, ⟨h2, hd⟩, fun _ _ => trivial⟩
  | list v =>
    obtain ⟨h1, h2, h3⟩ := ALVal.seek_tame H hv hp hd
    exact ⟨h1, h2, h3⟩

theorem Val.readExact_tame {n : Vol} (H : n.Harmless) {v : Val} (hv : v.Tame n) (buf : Bytes)
    {d : Dev} (hd : d.Has n.img) :
    (v.readExact buf d).1.NoPanic ∧ With (Val.Tame n) n.img (v.readExact buf d).2.1 ∧
      (v.readExact buf d).2.2.length = buf.length := by
  have h := readExactLoop_tame (Val.read_tame H) (buf.length + d.sched.length + 1) (v, d) [] buf ⟨hv, hd⟩
  rw [List.length_nil, Nat.zero_add] at h
  exact h

theorem Val.readExactAttached_tame {n : Vol} (H : n.Harmless) (k : Nat) :
    StM.Tame (With (Val.Tame n) n.img) (Val.readExactAttached k) fun b => b.length = k := by
  rintro ⟨v, d⟩ hI
  unfold Val.readExactAttached
  dsimp only
  obtain ⟨h1, h2, h3⟩ := Val.readExact_tame H hI.1 (List.replicate k 0) hI.2
  dsimp only at h1 h2 h3
  generalize v.readExact (List.replicate k 0) d = q at h1 h2 h3
  obtain ⟨x, s, b⟩ := q
  cases x with
  | ok u => exact .ok h2 (by rw [← List.length_replicate (n := k) (a := (0 : UInt8))]; exact h3)
  | err e => exact .err h2
  | panic p => exact absurd rfl (h1 p)
  | diverge => exact .diverge h2

theorem Attr.nonResidentValueDataSize_tame {n : Vol} {a : Attr} (h : a.Tame n)
    (hr : field a.file.recordData (a.offset + 8) 1 ≠ 0) :
    a.nonResidentValueDataSize.NoPanic ∧ ∀ m, a.nonResidentValueDataSize = .ok m → m < U64 :=
  ⟨by rw [(h.nonResident hr).2.2.1]; exact Res.noPanic_ok _, fun m hm => by
    rw [(h.nonResident hr).2.2.1] at hm
    cases hm
    exact (h.nonResident hr).2.2.2⟩

theorem Attr.value_tame {n : Vol} (H : n.Harmless) {a : Attr} (h : a.Tame n) :
    StM.Tame (Dev.Has n.img) a.value (Val.Tame n) := by
  unfold Attr.value
  cases hl : a.list with
  | none => exact .bind (.lift (Attr.simpleValue_tame h).1 (Attr.simpleValue_tame h).2) fun v hv => .pure hv
  | some l =>
    obtain ⟨h1, h2⟩ := h.list l hl
    have hs := Attr.nonResidentValueDataSize_tame h h2
    exact .bind (.lift hs.1 hs.2) fun s hs => .bind (Q := fun _ => True) (.lift h.inst fun _ _ => trivial) fun i _ =>
      .bind (Q := fun _ => True) (.lift h.ty fun _ _ => trivial) fun t _ =>
      .bind (ALVal.new_tame H h.file.ntfs h1 i t hs) fun v hv => .pure hv

theorem AttrList.ofValue_tame {n : Vol} {v : Val} (h : v.Tame n) :
    (AttrList.ofValue v).NoPanic ∧ ∀ l, AttrList.ofValue v = .ok l → l.Tame := by
  cases v with
  | simple v =>
    cases v with
    | res v => exact ⟨Res.noPanic_ok _, fun l e => by cases e; trivial⟩
    | nonRes v => exact ⟨Res.noPanic_ok _, fun l e => by cases e; exact h⟩
  | list v => exact ⟨Res.noPanic_err _, fun l e => by cases e⟩

theorem Attr.attributeList_tame {n : Vol} (H : n.Harmless) {a : Attr} (h : a.Tame n) :
    StM.Tame (Dev.Has n.img) a.attributeList AttrList.Tame := by
  unfold Attr.attributeList
  exact .bind (Q := fun _ => True) (.lift (h.ensureTy _) fun _ _ => trivial) fun _ _ =>
    .bind (Attr.value_tame H h) fun v hv => .lift (AttrList.ofValue_tame hv).1 (AttrList.ofValue_tame hv).2

/-! ### Items -/

/-- The attribute that an item stands for. -/
def AttrItem.theAttr (i : AttrItem) : Attr :=
  match i.valueFile with
  | some f => ⟨f, i.offset, i.list⟩
  | none => ⟨i.file, i.offset, i.list⟩

/-- An item of a harmless volume. -/
def AttrItem.Tame (n : Vol) (i : AttrItem) : Prop := i.theAttr.Tame n

theorem AttrItem.Tame.toAttribute {n : Vol} {i : AttrItem} (h : i.Tame n) : i.toAttribute = .ok i.theAttr := by
  unfold AttrItem.Tame AttrItem.theAttr at h
  unfold AttrItem.toAttribute AttrItem.theAttr
  split at h <;> rename_i e <;> rw [e] <;> exact h.new

/-- An iterator over the attributes of a file of a harmless volume. -/
structure Attrs.Tame (n : Vol) (it : Attrs) : Prop where
  raw : it.raw.Tame n
  list : ∀ l, it.list = some l → l.Tame

theorem NFile.attributes_tame {n : Vol} {f : NFile} (h : f.Tame n) :
    f.attributes.NoPanic ∧ ∀ it, f.attributes = .ok it → it.Tame n := by
  have := NFile.attributesRaw_tame h
  refine ⟨this.1.bind fun _ _ => Res.noPanic_ok _, fun it hit => ?_⟩
  obtain ⟨raw, h1, h2⟩ := Res.bind_eq_ok.mp hit
  cases h2
  exact ⟨(this.2 raw h1).1, fun l e => (nomatch e)⟩

theorem Attrs.itemOf_tame {n : Vol} (H : n.Harmless) {it : Attrs} (h : it.Tame n) {l : AttrList}
    (hl : l.Tame) (e : ListEntry) (t : AttrType) :
    StM.Tame (Dev.Has n.img) (it.itemOf l e t) fun x => x.1.Tame n := by
  unfold Attrs.itemOf
  refine .bind (Ntfs.file_tame H h.raw.file.ntfs _) fun f hf => ?_
  have h0 := ListEntry.toAttribute_tame (e := e) hf.1 hf.2.1
  refine .bind (.lift h0.1 h0.2) fun a ha => ?_
  obtain ⟨ha, hfile, hlist⟩ := ha
  obtain ⟨f', off, l'⟩ := a
  dsimp only at hfile hlist
  subst hfile hlist
  refine .bind (Q := fun b => b = (field f'.recordData (off + 8) 1 == 0)) ?_ fun b hb => ?_
  · rw [ha.isResident]
    exact .lift (Res.noPanic_ok _) fun b hb => by cases hb; rfl
  refine .ite (fun _ => .pure ha) fun hr => .pure ?_
  refine (⟨ha.file, ha.bound, ha.here, fun l0 e => ?_⟩ : Attr.Tame n ⟨f', off, some l⟩)
  cases e
  refine ⟨hl, fun h' => hr ?_⟩
  rw [hb, h']
  rfl

theorem Attrs.nextInList_tame {n : Vol} (H : n.Harmless) (fuel : Nat) {l : AttrList} (hl : l.Tame) :
    StM.Tame (With (Attrs.Tame n) n.img) (Attrs.nextInList fuel l) fun o => ∀ i, o = some i → i.Tame n := by
  induction fuel generalizing l with
  | zero => exact fun s hs => .diverge hs
  | succ fuel ih =>
    rintro ⟨it, d⟩ ⟨hit, hd⟩
    unfold Attrs.nextInList
    dsimp only at hit hd ⊢
    have h := AttrList.next_tame n.img (l, d) ⟨hl, hd⟩
    generalize AttrList.next (l, d) = q at h
    obtain ⟨x, l', d'⟩ := q
    obtain ⟨hl', hd'⟩ := h.keeps
    dsimp only at hl' hd'
    have hit1 : Attrs.Tame n { it with list := some l' } := ⟨hit.raw, fun l e => by cases e; exact hl'⟩
    cases x with
    | ok o =>
      cases o with
      | none => exact .ok ⟨hit1, hd'⟩ fun i e => (nomatch e)
      | some e =>
        dsimp only
        have ht := e.ty_noPanic
        generalize e.ty = t at ht
        cases t with
        | ok t =>
          dsimp only
          split
          · exact ih hl' _ ⟨hit1, hd'⟩
          split
          · exact ih hl' _ ⟨hit1, hd'⟩
          have h := Attrs.itemOf_tame H hit hl e t d' hd'
          generalize it.itemOf l e t d' = q at h
          obtain ⟨x, d''⟩ := q
          have hd'' := h.keeps
          cases x with
          | ok x => exact .ok ⟨⟨hit1.raw, hit1.list⟩, hd''⟩ fun i e => by cases e; exact h.val _ rfl
          | err e => exact .err ⟨⟨hit1.raw, hit1.list⟩, hd''⟩
          | panic p => exact h.not_panic
          | diverge => exact .diverge ⟨⟨hit1.raw, hit1.list⟩, hd''⟩
        | err e => exact .err ⟨hit1, hd'⟩
        | panic p => exact absurd rfl (ht p)
        | diverge => exact .diverge ⟨hit1, hd'⟩
    | err e => exact .err ⟨hit1, hd'⟩
    | panic p => exact h.not_panic
    | diverge => exact .diverge ⟨hit1, hd'⟩

theorem Attrs.nextFromList_tame {n : Vol} (H : n.Harmless) :
    StM.Tame (With (Attrs.Tame n) n.img) Attrs.nextFromList fun o => ∀ i, o = some i → i.Tame n := by
  rintro ⟨it, d⟩ ⟨hit, hd⟩
  unfold Attrs.nextFromList
  dsimp only at hit hd ⊢
  cases hl : it.list with
  | none => exact .ok ⟨hit, hd⟩ fun i e => (nomatch e)
  | some l => exact Attrs.nextInList_tame H _ (hit.list l hl) _ ⟨hit, hd⟩

theorem Attrs.nextLoop_tame {n : Vol} (H : n.Harmless) (fuel : Nat) :
    StM.Tame (With (Attrs.Tame n) n.img) (Attrs.nextLoop fuel) fun o => ∀ i, o = some i → i.Tame n := by
  induction fuel with
  | zero => exact fun s hs => .diverge hs
  | succ fuel ih =>
    unfold Attrs.nextLoop
    refine .bind (Attrs.nextFromList_tame H) fun o ho => ?_
    cases o with
    | some i => exact .pure ho
    | none =>
      rintro ⟨it, d⟩ ⟨hit, hd⟩
      dsimp only at hit hd ⊢
      have h := AttrsRaw.next_tame hit.raw
      generalize it.raw.next = q at h
      obtain ⟨x, raw'⟩ := q
      obtain ⟨h1, h2, h3⟩ := h
      dsimp only at h1 h2 h3
      have hit1 : Attrs.Tame n { it with raw := raw' } := ⟨h1, hit.list⟩
      cases x with
      | none => exact .ok ⟨hit1, hd⟩ fun i e => (nomatch e)
      | some x =>
        obtain ⟨hx, ha⟩ := h3 x rfl
        cases x with
        | ok a =>
          dsimp only
          obtain ⟨ha, haf, hal⟩ := ha a rfl
          have ht := ha.ty
          have hi : AttrItem.Tame n { file := it.raw.file, valueFile := none, offset := a.offset, list := none } := by
            obtain ⟨f, o, l⟩ := a
            dsimp only at haf hal
            subst haf hal
            exact ha
          generalize a.ty = t at ht
          split
          · have h := Attr.attributeList_tame H ha d hd
            generalize a.attributeList d = q at h
            obtain ⟨x, d'⟩ := q
            have hd' := h.keeps
            cases x with
            | ok l =>
              exact ih _ ⟨⟨h1, fun l' e => by cases e; exact h.val l rfl⟩, hd'⟩
            | err e => exact .err ⟨hit1, hd'⟩
            | panic p => exact h.not_panic
            | diverge => exact .diverge ⟨hit1, hd'⟩
          · exact absurd rfl (ht _)
          · exact .diverge ⟨hit1, hd⟩
          · exact .ok ⟨hit1, hd⟩ fun i e => by cases e; exact hi
        | err e => exact .err ⟨hit1, hd⟩
        | panic p => exact absurd rfl (hx p)
        | diverge => exact .diverge ⟨hit1, hd⟩

theorem Attrs.next_tame {n : Vol} (H : n.Harmless) :
    StM.Tame (With (Attrs.Tame n) n.img) Attrs.next fun o => ∀ i, o = some i → i.Tame n :=
  fun s hs => Attrs.nextLoop_tame H _ s hs

end NT
