import Verif.Lemmas.TameOps

/-! No panic on harmless volumes: indexes. -/

namespace NT

open Spec

/-! ### Lengths of entries -/

theorem Spec.LengthsOk.drop {d : Bytes} {stop s : Nat} (h : LengthsOk d stop s) {a : Nat} (ha : a ≤ s) :
    LengthsOk (d.drop a) (stop - a) (s - a) := by
  induction h with
  | done h => exact .done (by omega)
  | @cut s h =>
    refine .cut ?_
    rw [List.length_drop, field_drop, show a + (s - a + 8) = s + 8 by omega]
    omega
  | @last s h hl =>
    refine .last ?_ ?_
    · rw [field_drop, show a + (s - a + 8) = s + 8 by omega]; exact h
    · rw [field_drop, show a + (s - a + 12) = s + 12 by omega]; exact hl
  | @more s h _ ih =>
    refine .more ?_ ?_
    · rw [field_drop, show a + (s - a + 8) = s + 8 by omega]; exact h
    · rw [field_drop, show a + (s - a + 8) = s + 8 by omega,
        show s - a + field d (s + 8) 2 = s + field d (s + 8) 2 - a by omega]
      exact ih (by omega)

theorem Spec.LengthsOk.take {d : Bytes} {stop s : Nat} (h : LengthsOk d stop s) (hs : stop ≤ d.length) :
    LengthsOk (d.take stop) stop s := by
  have hl : (d.take stop).length = stop := by rw [List.length_take]; omega
  have hc : ∀ {s : Nat}, stop < s + 16 → LengthsOk (d.take stop) stop s := fun h => .cut (.inl (by omega))
  induction h with
  | done h => exact .done h
  | @cut s h =>
    by_cases hh : stop < s + 16
    · exact hc hh
    refine .cut (.inr ?_)
    rw [hl, field_take (by omega)]
    omega
  | @last s h hl =>
    by_cases hh : stop < s + 16
    · exact hc hh
    refine .last ?_ ?_ <;> rw [field_take (by omega)] <;> assumption
  | @more s h _ ih =>
    by_cases hh : stop < s + 16
    · exact hc hh
    refine .more ?_ ?_ <;> rw [field_take (by omega)] <;> assumption

/-! ### Nodes and entries -/

/-- The rest of a node whose entries can be read. -/
def NodeEntries.Tame (it : NodeEntries) : Prop := LengthsOk it.slice it.slice.length 0

theorem NodeEntries.next_tame : StM.Tame NodeEntries.Tame NodeEntries.next fun o => ∀ e, o = some e → e.Good := by
  intro it h
  have hp := C29_node_step_partial it
  unfold NodeEntries.next at hp ⊢
  by_cases he : it.slice.isEmpty
  · rw [if_pos he]; exact .ok h fun e h => (nomatch h)
  rw [if_neg he] at hp ⊢
  unfold NodeEntries.step at hp ⊢
  rw [IEntry.new_eq] at hp ⊢
  by_cases h1 : it.slice.length < 16
  · rw [if_pos h1]; exact .err h
  rw [if_neg h1] at hp ⊢
  by_cases h2 : field it.slice 8 2 > it.slice.length
  · rw [if_pos h2]; exact .err h
  rw [if_neg h2, Res.bind_ok] at hp ⊢
  have hne : it.slice.length ≠ 0 := fun e => he (List.isEmpty_iff.2 (List.length_eq_zero_iff.1 e))
  have h3 : 13 ≤ field it.slice 8 2 := by
    cases h with
    | done h => omega
    | cut h => rw [Nat.zero_add, Nat.zero_add, Nat.zero_add] at h; omega
    | last h => simpa using h
    | more h => simpa using h
  have hl : (it.slice.take (field it.slice 8 2)).length = field it.slice 8 2 := by
    rw [List.length_take]; omega
  have hg : IEntry.Good ⟨it.slice.take (field it.slice 8 2), it.position⟩ := by
    refine ⟨?_, ?_⟩ <;> dsimp only
    · omega
    · rw [field_take (by omega), hl]
  rw [IEntry.isLast_eq (by dsimp only; omega), Res.bind_ok]
  dsimp only
  rw [field_take (by omega)]
  by_cases hb : field it.slice 12 1 / 2 % 2 = 1
  · rw [if_pos (by simpa using hb)]
    exact .ok (.done (Nat.le_refl _)) fun e h => by cases h; exact hg
  · rw [if_neg (by simpa using hb), IEntry.length_eq (by dsimp only; omega), Res.bind_ok]
    dsimp only
    rw [field_take (by omega), idxRange_ok (by omega) (Nat.le_refl _), List.take_of_length_le (by simp)]
    refine .ok ?_ fun e h => by cases h; exact hg
    unfold NodeEntries.Tame
    dsimp only
    cases h with
    | done h => omega
    | cut h => rw [Nat.zero_add, Nat.zero_add, Nat.zero_add] at h; omega
    | last h hl => exact (hb (by simpa using hl)).elim
    | more h hn =>
      rw [Nat.zero_add, Nat.zero_add] at hn
      have := hn.drop (Nat.le_refl _)
      rw [Nat.sub_self] at this
      rw [List.length_drop]
      exact this

/-! ### Index roots -/

/-- An index root of a harmless volume. -/
structure IndexRoot.Tame (r : IndexRoot) : Prop where
  size : 32 ≤ r.slice.length
  stop : 16 + field r.slice 20 4 ≤ r.slice.length
  ok : RootOk r.slice

theorem IndexRoot.new_tame {b : Bytes} (h : 32 ≤ b.length → 16 + field b 16 4 < b.length →
    16 + field b 20 4 ≤ b.length → RootOk b) (p : Pos) :
    (IndexRoot.new b p).NoPanic ∧ ∀ r, IndexRoot.new b p = .ok r → r.Tame := by
  refine ⟨(C29_root b p).1.noPanic, fun r hr => ?_⟩
  rw [IndexRoot.new_eq] at hr
  split at hr
  · cases hr
  split at hr
  · cases hr
  split at hr
  · cases hr
  cases hr
  exact ⟨by dsimp only; omega, by dsimp only; omega, h (by omega) (by omega) (by omega)⟩

theorem Attr.Tame.code {n : Vol} {a : Attr} (h : a.Tame n) {t : AttrType} (ht : a.ensureTy t = .ok ()) :
    AttrType.ofCode (field a.recordData a.offset 4) = some t ∧ a.ty = .ok t := by
  unfold Attr.ensureTy at ht
  rw [Attr.ty_eq h.valid.header] at ht ⊢
  obtain ⟨t', h1, h2⟩ := Res.bind_eq_ok.mp ht
  split at h2
  · cases h2
  rename_i hh
  have e : t' = t := by simpa using hh
  subst e
  refine ⟨?_, h1⟩
  cases ho : AttrType.ofCode (field a.recordData a.offset 4) with
  | none => rw [ho] at h1; cases h1
  | some x => rw [ho] at h1; cases h1; rfl

theorem Attr.Tame.rootOk {n : Vol} {a : Attr} (h : a.Tame n) (ht : a.ensureTy .indexRoot = .ok ())
    (hr : field a.recordData (a.offset + 8) 1 = 0) :
    32 ≤ (residentBytes a.recordData a.offset).length →
    16 + field (residentBytes a.recordData a.offset) 16 4 < (residentBytes a.recordData a.offset).length →
    16 + field (residentBytes a.recordData a.offset) 20 4 ≤ (residentBytes a.recordData a.offset).length →
    RootOk (residentBytes a.recordData a.offset) :=
  h.attrOk.root (AttrType.ofCode_eq_some.1 (h.code ht).1) hr

theorem Attr.residentIndexRoot_tame {n : Vol} {a : Attr} (h : a.Tame n) :
    a.residentIndexRoot.NoPanic ∧ ∀ r, a.residentIndexRoot = .ok r → r.Tame := by
  unfold Attr.residentIndexRoot
  cases ht : a.ensureTy .indexRoot with
  | err e => exact ⟨Res.noPanic_err _, fun r hr => (nomatch hr)⟩
  | panic p => exact absurd ht (h.ensureTy _ p)
  | diverge => exact ⟨Res.noPanic_diverge, fun r hr => (nomatch hr)⟩
  | ok u =>
    rw [Res.bind_ok, h.isResident, Res.bind_ok]
    by_cases hr : field a.recordData (a.offset + 8) 1 = 0
    · have e : (field a.recordData (a.offset + 8) 1 == 0) = true := by simpa using hr
      have hv := h.residentValue (by rw [h.isResident, e])
      rw [e, if_pos rfl]
      have key : ∀ v, a.residentValue = .ok v → (IndexRoot.ofResident v).NoPanic ∧
          ∀ r, IndexRoot.ofResident v = .ok r → r.Tame := by
        intro v e
        refine IndexRoot.new_tame ?_ _
        rw [hv.2.2 v e]
        exact h.rootOk ht hr
      refine ⟨hv.1.bind fun v e => (key v e).1, fun r hr => ?_⟩
      obtain ⟨v, e, hr⟩ := Res.bind_eq_ok.mp hr
      exact (key v e).2 r hr
    · rw [if_neg (by simpa using hr)]
      exact ⟨Res.noPanic_err _, fun r hr => (nomatch hr)⟩

theorem Attr.indexRoot_tame {n : Vol} (H : n.Harmless) {a : Attr} (h : a.Tame n) :
    StM.Tame (Dev.Has n.img) a.indexRoot IndexRoot.Tame := by
  unfold Attr.indexRoot
  refine .bind (Q := fun _ => a.ensureTy .indexRoot = .ok ()) (.lift (h.ensureTy _) fun u hu => hu) fun u ht =>
    .bind (Q := fun v => ∀ x, v = .simple (.res x) → field a.recordData (a.offset + 8) 1 = 0 ∧
      x.data = residentBytes a.recordData a.offset) ?_ fun v hv => ?_
  · intro d hd
    have hv := Attr.value_tame H h d hd
    refine ⟨hv.noPanic, hv.keeps, fun v e x hx => ?_⟩
    subst hx
    unfold Attr.value at e
    cases hl : a.list with
    | none =>
      rw [hl] at e
      dsimp only at e
      rw [StM.bind_apply, StM.lift_apply] at e
      cases hs : a.simpleValue with
      | ok s =>
        rw [hs] at e
        cases e
        unfold Attr.simpleValue at hs
        rw [h.isResident, Res.bind_ok] at hs
        split at hs
        · rename_i hr
          obtain ⟨r, h1, h2⟩ := Res.bind_eq_ok.mp hs
          cases h2
          have hv := h.residentValue (by rw [h.isResident, hr])
          exact ⟨hv.2.1, hv.2.2 x h1⟩
        · obtain ⟨r, h1, h2⟩ := Res.bind_eq_ok.mp hs
          cases h2
      | err _ => rw [hs] at e; cases e
      | panic _ => rw [hs] at e; cases e
      | diverge => rw [hs] at e; cases e
    | some l =>
      rw [hl] at e
      dsimp only at e
      obtain ⟨_, _, _, e⟩ := StM.bind_ok_iff.mp (Prod.ext e rfl)
      obtain ⟨_, _, _, e⟩ := StM.bind_ok_iff.mp e
      obtain ⟨_, _, _, e⟩ := StM.bind_ok_iff.mp e
      obtain ⟨_, _, _, e⟩ := StM.bind_ok_iff.mp e
      cases e
  · cases v with
    | list v => exact .fail _
    | simple v =>
      cases v with
      | nonRes v => exact .fail _
      | res x =>
        obtain ⟨h1, h2⟩ := hv x rfl
        have := IndexRoot.new_tame (b := x.data) (by rw [h2]; exact h.rootOk ht h1) x.dataPosition
        exact .lift this.1 this.2

theorem IndexRoot.Tame.entries {r : IndexRoot} (h : r.Tame) :
    r.entries.NoPanic ∧ ∀ it, r.entries = .ok it → it.Tame := by
  have := h.size
  have hs := h.stop
  have ho := h.ok.order
  have hl := h.ok.entries
  unfold IndexRoot.entries
  rw [IndexRoot.entriesRange_eq (by omega), Res.bind_ok]
  dsimp only
  rw [idxRange_ok (by omega) (by omega), Res.bind_ok,
    show 16 + field r.slice 20 4 - (16 + field r.slice 16 4) = field r.slice 20 4 - field r.slice 16 4 by omega]
  refine ⟨Res.noPanic_ok _, fun it hit => ?_⟩
  cases hit
  unfold NodeEntries.Tame
  dsimp only
  rw [List.length_take, List.length_drop, Nat.min_eq_left (by omega)]
  exact hl

theorem IndexRoot.Tame.entryRanges {r : IndexRoot} (h : r.Tame) :
    r.entryRanges.NoPanic ∧ ∀ it, r.entryRanges = .ok it → it.Good := by
  have := h.size
  have hs := h.stop
  have ho := h.ok.order
  have hl := h.ok.entries
  unfold IndexRoot.entryRanges
  rw [IndexRoot.entriesRange_eq (by omega), Res.bind_ok]
  dsimp only
  rw [idxRange_ok (by omega) (by omega), Res.bind_ok,
    show 16 + field r.slice 20 4 - (16 + field r.slice 16 4) = field r.slice 20 4 - field r.slice 16 4 by omega]
  unfold NodeRanges.new
  rw [if_pos (Nat.le_refl _)]
  refine ⟨Res.noPanic_ok _, fun it hit => ?_⟩
  cases hit
  refine ⟨Nat.le_refl _, ?_⟩
  dsimp only
  rw [List.length_take, List.length_drop, Nat.min_eq_left (by omega)]
  exact hl

theorem IndexRoot.Tame.recordSize {r : IndexRoot} (h : r.Tame) : r.recordSize = .ok (field r.slice 8 4) := by
  have := h.size
  unfold IndexRoot.recordSize
  rw [readLE_ok (by omega)]

theorem IndexRoot.Tame.isLarge {r : IndexRoot} (h : r.Tame) : r.isLarge.NoPanic := by
  have := h.size
  exact .bind (idxByte_noPanic (by omega)) fun _ _ => Res.noPanic_ok _

/-! ### Index records -/

/-- An index record whose entries can be read. -/
structure IndexRecord.Tame (r : IndexRecord) : Prop where
  size : 37 ≤ r.record.data.length
  used : field r.record.data 28 4 ≤ field r.record.data 32 4
  allocated : 24 + field r.record.data 32 4 ≤ r.record.data.length
  ok : NodeOk r.record.data

theorem IndexRecord.ofBytes_tame {b : Bytes} {p : Pos} (h : 37 ≤ b.length) (h' : b.length < 65536)
    (hok : b.take 4 = [0x49, 0x4E, 0x44, 0x58] → ∀ r, (Record.mk b p).fixup = .ok r → NodeOk r.data) :
    (IndexRecord.ofBytes b p).NoPanic ∧ ∀ r, IndexRecord.ofBytes b p = .ok r → r.Tame := by
  rw [IndexRecord.ofBytes_eq b p (by omega)]
  by_cases hs : b.take 4 = [0x49, 0x4E, 0x44, 0x58]
  case neg => rw [if_pos hs]; exact ⟨Res.noPanic_err _, fun r e => (nomatch e)⟩
  rw [if_neg (by simpa using hs)]
  have key : ∀ r, (Record.mk b p).fixup = .ok r → (IndexRecord.mk r).validateSizes.NoPanic ∧
      ((IndexRecord.mk r).validateSizes = .ok () → (IndexRecord.mk r).Tame) := by
    intro r hr
    have hl := (Record.fixup_length hr).1
    dsimp only at hl
    have hn := hok hs r hr
    have h1 := hn.allocated
    rw [IndexRecord.validateSizes_eq _ (by dsimp only; omega)]
    dsimp only
    rw [if_neg (by omega)]
    by_cases h2 : 24 + field r.data 32 4 > r.data.length
    · rw [if_pos h2]; exact ⟨Res.noPanic_err _, fun e => (nomatch e)⟩
    have h3 := hn.used (by omega)
    rw [if_neg h2, if_neg (by omega)]
    by_cases h4 : 24 + field r.data 28 4 > 24 + field r.data 32 4
    · rw [if_pos h4]; exact ⟨Res.noPanic_err _, fun e => (nomatch e)⟩
    rw [if_neg h4]
    exact ⟨Res.noPanic_ok _, fun _ => ⟨by dsimp only; omega, by dsimp only; omega, by dsimp only; omega, hn⟩⟩
  refine ⟨(C14_no_panic_partial ⟨b, p⟩ (by dsimp only; omega) h').noPanic.bind fun r hr => (key r hr).1.bind
    fun _ _ => Res.noPanic_ok _, fun r hr => ?_⟩
  obtain ⟨x, h1, hr⟩ := Res.bind_eq_ok.mp hr
  obtain ⟨u, h2, hr⟩ := Res.bind_eq_ok.mp hr
  cases hr
  exact (key x h1).2 h2

theorem IndexRecord.Tame.entries {r : IndexRecord} (h : r.Tame) :
    r.entries.NoPanic ∧ ∀ it, r.entries = .ok it → it.Tame := by
  obtain ⟨h1, h2, h3, hn⟩ := h
  have ho := hn.order h2 h3
  have hl := hn.entries h2 h3
  unfold IndexRecord.entries IndexRecord.entriesRange IndexRecord.entriesOffset IndexRecord.dataSize
  rw [readLE_ok (n := 4) (a := 24) (by omega), readLE_ok (n := 4) (a := 28) (by omega)]
  simp only [Res.bind_ok, Res.pure_eq]
  rw [idxRange_ok (by omega) (by omega), Res.bind_ok]
  refine ⟨Res.noPanic_ok _, fun it hit => ?_⟩
  cases hit
  unfold NodeEntries.Tame
  dsimp only
  have := (hl.take (by omega)).drop (Nat.le_refl _)
  rw [Nat.sub_self, List.drop_take] at this
  rw [List.length_take, List.length_drop, Nat.min_eq_left (by omega)]
  exact this

theorem IndexRecord.Tame.intoEntryRanges {r : IndexRecord} (h : r.Tame) :
    r.intoEntryRanges.NoPanic ∧ ∀ it, r.intoEntryRanges = .ok it → it.Good := by
  obtain ⟨h1, h2, h3, hn⟩ := h
  rw [IndexRecord.intoEntryRanges_eq (by omega) (by omega)]
  exact ⟨Res.noPanic_ok _, fun it hit => by cases hit; exact ⟨by dsimp only; omega, hn.entries h2 h3⟩⟩

theorem IndexRecord.Tame.vcn {r : IndexRecord} (h : r.Tame) : r.vcn.NoPanic := by
  have := h.size
  exact .bind (readLE_noPanic (by omega)) fun _ _ => Res.noPanic_ok _

theorem IndexRecord.Tame.hasSubnodes {r : IndexRecord} (h : r.Tame) : r.hasSubnodes.NoPanic := by
  have := h.size
  exact .bind (idxByte_noPanic (by omega)) fun _ _ => Res.noPanic_ok _

/-! ### Index allocations -/

/-- What the values with `R` hold as index records is well-formed. -/
def Vol.NodesOk (n : Vol) (R : Val → Prop) : Prop :=
  ∀ v size d b d', R v → 37 ≤ size → size < 65536 → d.img = n.img → v.readInto size d = (.ok b, d') →
    b.take 4 = [0x49, 0x4E, 0x44, 0x58] → ∀ p r, (Record.mk b p).fixup = .ok r → NodeOk r.data

/-- Seeking keeps `R`. -/
def Vol.SeekKeeps (n : Vol) (R : Val → Prop) : Prop :=
  ∀ v pos d v' d', R v → pos.InRange → d.img = n.img → IndexAllocation.seekTo v pos d = (.ok v', d') → R v'

theorem IndexRecord.new_tame {n : Vol} (H : n.Harmless) {R : Val → Prop} (hN : n.NodesOk R) {v : Val}
    (hv : v.Tame n) (hR : R v) {size : Nat} (h : 37 ≤ size) (h' : size < 65536) :
    StM.Tame (Dev.Has n.img) (IndexRecord.new v size) IndexRecord.Tame := by
  unfold IndexRecord.new
  refine .bind (Q := fun b => b.length = size ∧ (b.take 4 = [0x49, 0x4E, 0x44, 0x58] →
    ∀ p r, (Record.mk b p).fixup = .ok r → NodeOk r.data)) ?_ fun b hb => ?_
  · intro d hd
    have h1 := Val.readInto_tame H hv size d hd
    refine ⟨h1.noPanic, h1.keeps, fun b hb => ⟨h1.val b hb, hN v size d b _ hR h h' hd (Prod.ext hb rfl)⟩⟩
  · have := IndexRecord.ofBytes_tame (b := b) (p := v.dataPosition) (by omega) (by omega) fun hs r hr => hb.2 hs _ r hr
    exact .lift this.1 this.2

theorem IndexAllocation.seekTo_tame {n : Vol} (H : n.Harmless) {v : Val} (hv : v.Tame n) {pos : SeekFrom}
    (hp : pos.InRange) : StM.Tame (Dev.Has n.img) (IndexAllocation.seekTo v pos) (Val.Tame n) := by
  intro d hd
  have h := Val.seek_tame H hv hp hd
  unfold IndexAllocation.seekTo
  generalize v.seek pos d = q at h
  obtain ⟨x, v', d'⟩ := q
  cases x with
  | ok u => exact .ok h.keeps.2 h.keeps.1
  | err e => exact .err h.keeps.2
  | panic p => exact h.not_panic
  | diverge => exact .diverge h.keeps.2

theorem Vcn.offset_tame (vcn : Int) (cs : Nat) :
    (Vcn.offset vcn cs).NoPanic ∧ ∀ o, Vcn.offset vcn cs = .ok o → (SeekFrom.current o).InRange := by
  unfold Vcn.offset checkedMulI64
  split
  · rename_i h
    split at h
    · cases h
      exact ⟨Res.noPanic_ok _, fun o e => by cases e; assumption⟩
    · cases h
  · exact ⟨Res.noPanic_err _, fun o e => (nomatch e)⟩

theorem IndexAllocation.recordFromVcn_tame {n : Vol} (H : n.Harmless) {R : Val → Prop} (hN : n.NodesOk R)
    (hK : n.SeekKeeps R) {x : IndexAllocation} (hx : x.value.Tame n) (hR : R x.value) {size : Nat} (h : 37 ≤ size)
    (h' : size < 65536) (vcn : Int) :
    StM.Tame (Dev.Has n.img) (x.recordFromVcn size vcn) IndexRecord.Tame := by
  unfold IndexAllocation.recordFromVcn
  refine .bind (.lift (Vcn.offset_tame _ _).1 (Vcn.offset_tame _ _).2) fun o ho =>
    .bind (Q := fun v => v.Tame n ∧ R v) ?_ fun v hv => .ite (fun _ => .fail _) fun _ =>
    .bind (IndexRecord.new_tame H hN hv.1 hv.2 h h') fun r hr =>
    .bind (Q := fun _ => True) (.lift hr.vcn fun _ _ => trivial) fun _ _ => .ite (fun _ => .fail _) fun _ => .pure hr
  intro d hd
  have h1 := IndexAllocation.seekTo_tame H hx ho d hd
  exact ⟨h1.noPanic, h1.keeps, fun v e => ⟨h1.val v e, hK _ _ d v _ hR ho hd (Prod.ext e rfl)⟩⟩

theorem IndexAllocation.ofValue_tame {n : Vol} {v : Val} (hv : v.Tame n) :
    (IndexAllocation.ofValue v).NoPanic ∧ ∀ x, IndexAllocation.ofValue v = .ok x → x.value.Tame n := by
  cases v with
  | list v => exact ⟨Res.noPanic_ok _, fun x e => by cases e; exact hv⟩
  | simple v =>
    cases v with
    | res v => exact ⟨Res.noPanic_err _, fun x e => (nomatch e)⟩
    | nonRes v => exact ⟨Res.noPanic_ok _, fun x e => by cases e; exact hv⟩

/-- An index allocation of a harmless volume. -/
structure IndexAllocation.Tame (n : Vol) (x : IndexAllocation) : Prop where
  value : x.value.Tame n
  src : ∃ a : Attr, a.Tame n ∧ a.ty = .ok .indexAllocation

theorem Attr.indexAllocation_tame {n : Vol} (H : n.Harmless) {a : Attr} (h : a.Tame n) :
    StM.Tame (Dev.Has n.img) a.indexAllocation (IndexAllocation.Tame n) := by
  unfold Attr.indexAllocation
  refine .bind (Q := fun _ => a.ty = .ok .indexAllocation) (.lift (h.ensureTy _) fun u hu => (h.code hu).2) fun _ ht =>
    .bind (Attr.value_tame H h) fun v hv => .lift (IndexAllocation.ofValue_tame hv).1 fun x e =>
      ⟨(IndexAllocation.ofValue_tame hv).2 x e, a, h, ht⟩

/-- An iterator over index records, and its size. -/
structure IndexRecords.Tame (n : Vol) (it : IndexRecords) : Prop where
  allocation : it.allocation.Tame n
  size : 37 ≤ it.size ∧ it.size < 65536

/-- The iterator itself stays tame whatever the records hold. -/
theorem IndexRecords.next_keeps {n : Vol} (H : n.Harmless) {it : IndexRecords} (h : it.Tame n) {d : Dev}
    (hd : d.img = n.img) : (IndexRecords.next (it, d)).2.1.Tame n := by
  unfold IndexRecords.next
  dsimp only
  split
  · exact h
  have hkeep : (IndexRecord.new it.allocation.value it.size d).2.img = n.img := by
    have := Val.readInto_tame H h.allocation.value it.size d hd
    unfold IndexRecord.new
    rw [StM.bind_apply]
    generalize it.allocation.value.readInto it.size d = q at this
    obtain ⟨x, d'⟩ := q
    cases x <;> exact this.keeps
  generalize IndexRecord.new it.allocation.value it.size d = q at hkeep
  obtain ⟨x, d1⟩ := q
  cases x with
  | ok r =>
    dsimp only
    have h1 := Val.seek_tame H h.allocation.value (pos := .current it.size) (by
      have := h.size
      unfold SeekFrom.InRange
      omega) (d := d1) hkeep
    generalize it.allocation.value.seek (.current it.size) d1 = q at h1
    obtain ⟨x, v', d'⟩ := q
    have h2 : IndexRecords.Tame n { it with allocation := { it.allocation with value := v' } } :=
      ⟨⟨h1.keeps.1, h.allocation.src⟩, h.size⟩
    cases x <;> exact h2
  | err e => exact h
  | panic p => exact h
  | diverge => exact h

theorem IndexRecords.next_tame {n : Vol} (H : n.Harmless) {R : Val → Prop} (hN : n.NodesOk R) {it : IndexRecords}
    (h : it.Tame n) (hR : R it.allocation.value) {d : Dev} (hd : d.Has n.img) :
    (IndexRecords.next (it, d)).1.NoPanic ∧
      ∀ o r, (IndexRecords.next (it, d)).1 = .ok o → o = some r → r.Tame := by
  unfold IndexRecords.next
  dsimp only
  split
  · exact ⟨Res.noPanic_ok _, fun o r e e' => by subst e'; cases e⟩
  have h1 := IndexRecord.new_tame H hN h.allocation.value hR h.size.1 h.size.2 d hd
  generalize IndexRecord.new it.allocation.value it.size d = q at h1
  obtain ⟨x, d1⟩ := q
  cases x with
  | ok r =>
    dsimp only
    have h2 := Val.seek_tame H h.allocation.value (pos := .current it.size) (by
      have := h.size
      unfold SeekFrom.InRange
      omega) (d := d1) h1.keeps
    generalize it.allocation.value.seek (.current it.size) d1 = q at h2
    obtain ⟨x, v', d'⟩ := q
    cases x with
    | ok u => exact ⟨Res.noPanic_ok _, fun o r' e e' => by subst e'; cases e; exact h1.val r rfl⟩
    | err e => exact ⟨Res.noPanic_err _, fun o r e => (nomatch e)⟩
    | panic p => exact h2.not_panic
    | diverge => exact ⟨Res.noPanic_diverge, fun o r e => (nomatch e)⟩
  | err e => exact ⟨Res.noPanic_err _, fun o r e => (nomatch e)⟩
  | panic p => exact h1.not_panic
  | diverge => exact ⟨Res.noPanic_diverge, fun o r e => (nomatch e)⟩

/-! ### Indexes -/

/-- An index of a harmless volume. -/
structure Index.Tame (n : Vol) (ix : Index) : Prop where
  size : 37 ≤ ix.recordSize ∧ ix.recordSize < 65536
  root : ix.rootRanges.Good
  item : ∀ i, ix.allocationItem = some i → i.Tame n

theorem Index.new_tame {n : Vol} {i : AttrItem} (hi : i.Tame n) {o : Option AttrItem}
    (ho : ∀ x, o = some x → x.Tame n) :
    (Index.new i o).NoPanic ∧ ∀ ix, Index.new i o = .ok ix → ix.Tame n := by
  unfold Index.new
  rw [hi.toAttribute, Res.bind_ok]
  have h1 := Attr.residentIndexRoot_tame hi
  have hc : ∀ r : IndexRoot, r.Tame → (Index.checkAllocation r o).NoPanic := by
    intro r hr
    cases o with
    | none => exact hr.isLarge.bind fun _ _ => .ite (fun _ => Res.noPanic_err _) fun _ => Res.noPanic_ok _
    | some x =>
      have hx := ho x rfl
      unfold Index.checkAllocation
      dsimp only
      rw [hx.toAttribute, Res.bind_ok]
      exact Attr.Tame.ensureTy hx _
  refine ⟨(Attr.Tame.ensureTy hi _).bind fun _ _ => h1.1.bind fun r hr => (hc r (h1.2 r hr)).bind fun _ _ => ?_,
    fun ix hix => ?_⟩
  · have ht := h1.2 r hr
    rw [ht.recordSize, Res.bind_ok]
    exact ht.entryRanges.1.bind fun _ _ => Res.noPanic_ok _
  · obtain ⟨_, _, hix⟩ := Res.bind_eq_ok.mp hix
    obtain ⟨r, hr, hix⟩ := Res.bind_eq_ok.mp hix
    obtain ⟨_, _, hix⟩ := Res.bind_eq_ok.mp hix
    have ht := h1.2 r hr
    rw [ht.recordSize, Res.bind_ok] at hix
    obtain ⟨rs, hrs, hix⟩ := Res.bind_eq_ok.mp hix
    cases hix
    exact ⟨ht.ok.size, ht.entryRanges.2 rs hrs, ho⟩

theorem NFile.directoryIndex_tame {n : Vol} (H : n.Harmless) {f : NFile} (hf : f.Tame n) (fuel : Nat) :
    StM.Tame (Dev.Has n.img) (f.directoryIndex fuel) (Index.Tame n) := by
  unfold NFile.directoryIndex
  refine .bind (Q := fun _ => True) (.lift ?_ fun _ _ => trivial) fun b _ => .ite (fun _ => .fail _) fun _ =>
    .bind (NFile.findAttribute_tame H hf _ _ fuel) fun i hi => .bind (Q := fun a => a = i.theAttr)
      (.lift ?_ ?_) fun a ha => ?_
  · have := hf.min
    exact .bind (.bind (readLE_noPanic (by omega)) fun _ _ => Res.noPanic_ok _) fun _ _ => Res.noPanic_ok _
  · rw [hi.toAttribute]; exact Res.noPanic_ok _
  · intro a ha
    rw [hi.toAttribute] at ha
    cases ha
    rfl
  subst ha
  have h1 := Attr.residentIndexRoot_tame hi
  refine .bind (.lift h1.1 h1.2) fun r hr => .bind (Q := fun o => ∀ x, o = some x → x.Tame n) ?_ fun o ho =>
    .lift (Index.new_tame hi ho).1 (Index.new_tame hi ho).2
  unfold NFile.indexAllocationItem
  exact .bind (Q := fun _ => True) (.lift hr.isLarge fun _ _ => trivial) fun b _ => .ite (fun _ =>
    .bind (NFile.findAttribute_tame H hf _ _ fuel) fun i hi => .pure fun x e => by cases e; exact hi) fun _ =>
    .pure fun x e => (nomatch e)

theorem Index.loadsGood {n : Vol} (H : n.Harmless) {R : Val → Prop} (hN : n.NodesOk R) (hK : n.SeekKeeps R)
    {ix : Index} (h : ix.Tame n) (hR : ∀ i x d d', ix.allocationItem = some i → d.img = n.img →
      i.theAttr.indexAllocation d = (.ok x, d') → R x.value) : ix.LoadsGood (Dev.Has n.img) := by
  intro vcn d hd
  have : StM.Tame (Dev.Has n.img) (ix.subnode vcn) NodeRanges.Good := by
    unfold Index.subnode
    cases ho : ix.allocationItem with
    | none => exact .fail _
    | some i =>
      have hi := h.item i ho
      refine .bind (Q := fun j => j = i) (.lift (.ofOption _ _) fun j e => by cases e; rfl) fun j e => ?_
      subst e
      rw [hi.toAttribute]
      refine .bind (Q := fun a => a = j.theAttr) (.lift (Res.noPanic_ok _) fun j e => by cases e; rfl) fun a e => ?_
      subst e
      refine .bind (Q := fun x => x.Tame n ∧ R x.value) ?_ fun x hx =>
        .bind (IndexAllocation.recordFromVcn_tame H hN hK hx.1.value hx.2 h.size.1 h.size.2 vcn) fun r hr =>
        .lift hr.intoEntryRanges.1 hr.intoEntryRanges.2
      intro d hd
      have h1 := Attr.indexAllocation_tame H hi d hd
      exact ⟨h1.noPanic, h1.keeps, fun x e => ⟨h1.val x e, hR j x d _ ho hd (Prod.ext e rfl)⟩⟩
  have h1 := this d hd
  exact ⟨h1.noPanic, h1.keeps, h1.val⟩

/-! ### Entries, traversal and lookup -/

theorem IEntry.range_noPanic (e : IEntry) (a b : Nat) : (e.range a b).NoPanic := .ofOption _ _

theorem IEntry.Good.key {e : IEntry} (h : e.Good) {κ : Type} {kf : Bytes → Pos → Res κ}
    (hk : ∀ b p, (kf b p).NoPanic) : (e.key kf).NoPanic := by
  have := h.1
  refine .bind (readLE_noPanic (by omega)) fun _ _ => .ite (fun _ => Res.noPanic_ok _) fun _ => .bind ?_ fun _ _ =>
    .ite (fun _ => Res.noPanic_ok _) fun _ => .bind (IEntry.range_noPanic _ _ _) fun _ _ => .bind (hk _ _) fun _ _ => Res.noPanic_ok _
  rw [IEntry.isLast_eq (by omega)]
  exact Res.noPanic_ok _

theorem IEntry.Good.data {e : IEntry} (h : e.Good) {κ : Type} {kf : Bytes → Pos → Res κ}
    (hk : ∀ b p, (kf b p).NoPanic) : (e.data kf).NoPanic := by
  have := h.1
  exact .bind (readLE_noPanic (by omega)) fun _ _ => .ite (fun _ => Res.noPanic_ok _) fun _ =>
    .bind (readLE_noPanic (by omega)) fun _ _ => .ite (fun _ => Res.noPanic_ok _) fun _ =>
    .bind (IEntry.range_noPanic _ _ _) fun _ _ => .bind (hk _ _) fun _ _ => Res.noPanic_ok _

theorem IndexEntries.next_good {ix : Index} {P : Dev → Prop} (hix : ix.LoadsGood P) (fuel : Nat)
    {it : IndexEntries} {d : Dev} (h : StacksGood it.inner it.following) (hd : P d) :
    Out (fun s => StacksGood s.1.inner s.1.following ∧ P s.2) (fun o => ∀ e, o = some e → e.Good)
      (IndexEntries.next ix fuel (it, d)) := by
  obtain ⟨r0, it', d', e, hp, hd', hs, hx⟩ := IndexEntries.loop_good hix fuel it d h hd
  unfold IndexEntries.next
  rw [e]
  cases r0 with
  | panic p => exact (hp p rfl).elim
  | diverge => exact .diverge ⟨hs, hd'⟩
  | err x => exact .err ⟨hs, hd'⟩
  | ok o =>
    cases o with
    | none => exact .ok ⟨hs, hd'⟩ fun e he => (nomatch he)
    | some x =>
      obtain ⟨top, below, hin, hg⟩ := hx x rfl
      dsimp only
      unfold IndexEntries.entryOf
      rw [hin]
      dsimp only
      have hsafe := hg.toEntry
      generalize x.toEntry top.data = q at hsafe
      cases q with
      | panic p => exact hsafe.1.elim
      | diverge => exact hsafe.1.elim
      | err x => exact .err ⟨hs, hd'⟩
      | ok o => exact .ok ⟨hs, hd'⟩ fun e he => by cases he; exact hsafe.2 o rfl

theorem Index.find_good {ix : Index} {P : Dev → Prop} (hix : ix.LoadsGood P) (hroot : ix.rootRanges.Good) {κ : Type}
    {kf : Bytes → Pos → Res κ} (hk : ∀ b p, (kf b p).NoPanic) {cmp : κ → Res Ordering} (hc : ∀ k, (cmp k).NoPanic)
    (fuel : Nat) : StM.Tame P (ix.find kf cmp fuel) fun o => ∀ e, o = some e → e.Good := by
  have key : ∀ (fuel : Nat) (it : NodeRanges), it.Good →
      StM.Tame P (Index.findLoop kf cmp ix fuel it) fun o => ∀ e, o = some e → e.Good := by
    intro fuel
    induction fuel with
    | zero => intro it _ d hd; exact .diverge hd
    | succ fuel ih =>
      intro it hit d hd
      unfold Index.findLoop
      generalize hn : it.next = q
      obtain ⟨r, it'⟩ := q
      obtain ⟨hsafe, hgood, hdata, hrange⟩ := hit.next hn
      cases r with
      | panic p => exact hsafe.elim
      | diverge => exact hsafe.elim
      | err e => exact .err hd
      | ok o =>
        cases o with
        | none => exact .ok hd fun e he => (nomatch he)
        | some r =>
          have hr := hrange r rfl
          rw [← hdata] at hr
          dsimp only
          obtain ⟨t1, t2⟩ := hr.toEntry
          generalize r.toEntry it'.data = e at t1 t2
          cases e with
          | panic p => exact t1.elim
          | diverge => exact t1.elim
          | err e => exact .err hd
          | ok e =>
            have hg := t2 e rfl
            have a9 : e.subnodeVcn.NoPanic := by
              rw [IEntry.subnodeVcn_eq hg.1 hg.2]
              exact .ite (fun _ => .ite (fun _ => Res.noPanic_ok _) fun _ => Res.noPanic_err _) fun _ => Res.noPanic_ok _
            have hj : (Index.judge kf cmp e).NoPanic := by
              unfold Index.judge
              refine .bind (hg.key hk) fun o _ => ?_
              cases o with
              | none => exact Res.noPanic_ok _
              | some k =>
                refine .bind (hc k) fun c _ => ?_
                cases c <;> exact Res.noPanic_ok _
            dsimp only
            generalize Index.judge kf cmp e = j at hj
            cases j with
            | panic p => exact absurd rfl (hj p)
            | diverge => exact .diverge hd
            | err e => exact .err hd
            | ok o =>
              cases o with
              | some b =>
                cases b with
                | true => exact .ok hd fun e' he => by cases he; exact hg
                | false => exact ih it' hgood d hd
              | none =>
                dsimp only
                generalize e.subnodeVcn = v at a9
                cases v with
                | panic p => exact absurd rfl (a9 p)
                | diverge => exact .diverge hd
                | err e => exact .err hd
                | ok v =>
                  cases v with
                  | none => exact .ok hd fun e he => (nomatch he)
                  | some vcn =>
                    dsimp only
                    obtain ⟨hp, hd', hsub⟩ := hix vcn d hd
                    generalize ix.subnode vcn d = s at hp hd' hsub
                    obtain ⟨rs, d'⟩ := s
                    cases rs with
                    | panic p => exact (hp p rfl).elim
                    | diverge => exact .diverge hd'
                    | err e => exact .err hd'
                    | ok sub => exact ih sub (hsub sub rfl) d' hd'
  exact key fuel _ hroot

theorem FileName.keyFromSlice_tame (b : Bytes) (p : Pos) :
    (FileName.keyFromSlice b p).NoPanic ∧ ∀ f, FileName.keyFromSlice b p = .ok f → f.Tame := by
  have h := FileName.structured_tame _ _ _ cursorReadExact_tame p b.length b trivial
  exact ⟨h.noPanic, h.val⟩

/-! ### Data runs handed out -/

/-- A sequence of data runs of a harmless volume. -/
structure DataRuns.Tame (r : DataRuns) : Prop where
  lcn : r.state.previousLcn < U64
  fit : r.Fit

theorem DataRuns.Tame.next {r : DataRuns} (h : r.Tame) : r.next.2.Tame := by
  refine ⟨?_, h.fit.next⟩
  rcases r.next_cases h.lcn with ⟨r1, h', _, _, e⟩ | ⟨e, h'⟩ | ⟨l, h', hl, _⟩ | ⟨y, o, l, h', _, _, h4, _⟩ <;> rw [h']
  · rw [e]; exact h.lcn
  · exact h.lcn
  · exact hl
  · exact h4

/-- A data run that ends at or below 2^64. -/
def DataRun.Tame (r : DataRun) : Prop := ∀ p, r.position = some p → p + r.allocatedSize ≤ U64

theorem DataRun.Tame.read {r : DataRun} (h : r.Tame) (buf : Bytes) (d : Dev) :
    (r.read buf d).1.NoPanic ∧ (r.read buf d).2.1.Tame := by
  unfold DataRun.read
  by_cases h0 : r.remainingLen = 0
  · rw [if_pos h0]; exact ⟨Res.noPanic_ok _, h⟩
  rw [if_neg h0]
  cases hp : r.position with
  | none => exact ⟨Res.noPanic_ok _, fun p e => by cases e⟩
  | some p =>
    have := h p hp
    have hlt : p + r.streamPosition < U64 := by
      unfold DataRun.remainingLen at h0
      omega
    dsimp only
    rw [if_pos hlt]
    have h1 := (Dev.seekStart_tame d.img (p + r.streamPosition) d rfl)
    generalize Dev.seekStart (p + r.streamPosition) d = q at h1
    obtain ⟨x, d1⟩ := q
    cases x with
    | ok u =>
      dsimp only
      have h2 := (Dev.read_tame d1.img (min buf.length r.remainingLen) d1 rfl)
      generalize Dev.read (min buf.length r.remainingLen) d1 = q at h2
      obtain ⟨x, d2⟩ := q
      cases x with
      | ok b => exact ⟨Res.noPanic_ok _, fun q e => by cases e; exact this⟩
      | err e => exact ⟨Res.noPanic_err _, h⟩
      | panic e => exact h2.not_panic
      | diverge => exact ⟨Res.noPanic_diverge, h⟩
    | err e => exact ⟨Res.noPanic_err _, h⟩
    | panic e => exact h1.not_panic
    | diverge => exact ⟨Res.noPanic_diverge, h⟩

theorem DataRun.Tame.seek {r : DataRun} (h : r.Tame) (pos : SeekFrom) :
    (r.seek pos).1.NoPanic ∧ (r.seek pos).2.Tame := by
  refine ⟨?_, h⟩
  show (seekContiguous r.streamPosition r.allocatedSize pos).1.NoPanic
  unfold seekContiguous
  repeat' split
  all_goals first | exact Res.noPanic_ok _ | exact Res.noPanic_err _

end NT
