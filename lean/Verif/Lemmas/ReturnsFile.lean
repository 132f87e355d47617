import Verif.Lemmas.Returns
import Verif.Model.Index

/-! Continuation of `Verif/Lemmas/Returns.lean`: values, attributes of files, lookups and the nodes of an
index. -/

namespace NT

open Spec

/-! ### Values -/

/-- What every value has. -/
def Val.Sane : Val → Prop
  | .simple v => v.Sane
  | .list v => v.Sane

theorem Val.readFn_returns (v : Val) (d : Dev) (buf : Bytes) (hv : v.Sane) :
    (Val.readFn (v, d) buf).1.Returns ∧ (Val.readFn (v, d) buf).2.1.1.Sane ∧
      (Val.readFn (v, d) buf).2.2.length = buf.length ∧
      Uses d (Val.readFn (v, d) buf).1 (Val.readFn (v, d) buf).2.1.2 := by
  match v with
  | .simple (.res r) =>
    show (r.read buf).1.Returns ∧ True ∧ (r.read buf).2.2.length = _ ∧ Uses d (r.read buf).1 d
    rw [ResVal.read_eq]
    refine ⟨.ok _, trivial, ?_, .refl_ok _ _⟩
    dsimp only
    rw [List.length_append, List.length_take, List.length_drop, List.length_drop]
    omega
  | .simple (.nonRes v) => exact NonRes.readFn_returns v d buf hv
  | .list v =>
    have h := ALVal.read_returns hv buf d
    obtain ⟨b, g1, g2, _⟩ := ALVal.readLoop_contract (buf.length + v.runFuel + v.leftFuel) v buf 0 d (by omega)
    refine ⟨h.1, h.2.1.sane, ?_, h.2.2⟩
    show (ALVal.readLoop (buf.length + v.runFuel + v.leftFuel) v buf 0 d).2.2.1.length = _
    rw [g2]
    exact overwrite_length (by omega)

theorem Val.seek_returns {v : Val} (hv : v.Sane) (pos : SeekFrom) (d : Dev) :
    (v.seek pos d).1.Returns ∧ (v.seek pos d).2.1.Sane := by
  cases v with
  | simple v => exact SVal.seek_returns hv pos
  | list v =>
    have h := ALVal.seek_returns hv pos d
    exact ⟨h.1, h.2.1.sane⟩

theorem Val.readExact_returns {v : Val} (hv : v.Sane) (buf : Bytes) (d : Dev) :
    (v.readExact buf d).1.Returns ∧ (v.readExact buf d).2.1.1.Sane ∧ (v.readExact buf d).1.Quiet := by
  have h := readExactLoop_returns Val.readFn Val.Sane Val.readFn_returns (buf.length + d.sched.length + 1) v d []
    buf hv (by omega)
  exact ⟨h.1, h.2.1, h.2.2.2⟩

theorem Val.readExactAttached_keeps (n : Nat) :
    (Val.readExactAttached n).Keeps (fun s : Val × Dev => s.1.Sane) := by
  rintro ⟨v, d⟩ hv
  unfold Val.readExactAttached
  dsimp only
  have h := Val.readExact_returns hv (List.replicate n 0) d
  generalize v.readExact (List.replicate n 0) d = q at h
  obtain ⟨x, ⟨v', d'⟩, b⟩ := q
  obtain ⟨h1, h2, h3⟩ := h
  cases x with
  | ok u => exact ⟨.ok _, .ok _, h2⟩
  | err e => exact ⟨.err _, .err (Err.viaIo_quiet fun h' => h3 (by rw [h'])), h2⟩
  | panic p => exact ⟨.panic _, .panic _, h2⟩
  | diverge => exact absurd rfl h1

/-- The operation comes back on every device. -/
def StM.Comes {α : Type} (p : StM Dev α) : Prop := ∀ d, (p d).1.Returns

namespace StM.Comes

theorem lift {α : Type} {x : Res α} (h : x.Returns) : StM.Comes (StM.lift x : StM Dev α) := fun _ => h

theorem pure {α : Type} (a : α) : StM.Comes (Pure.pure a : StM Dev α) := fun _ => .ok _

theorem fail {α : Type} (e : Err) : StM.Comes (StM.fail e : StM Dev α) := fun _ => .err _

theorem die {α : Type} (p : Panic) : StM.Comes (StM.die p : StM Dev α) := fun _ => .panic _

theorem bind {α β : Type} {p : StM Dev α} {f : α → StM Dev β} (hp : p.Comes)
    (hf : ∀ a d d', p d = (.ok a, d') → (f a).Comes) : StM.Comes (p >>= f) := by
  intro s
  rw [StM.bind_apply]
  have h := hp s
  cases e : p s with
  | mk r s' =>
  rw [e] at h
  cases r with
  | ok a => exact hf a s s' e s'
  | err x => exact .err _
  | panic p => exact .panic _
  | diverge => exact absurd rfl h

theorem ite {α : Type} {c : Prop} [Decidable c] {p q : StM Dev α} (hp : p.Comes) (hq : q.Comes) :
    StM.Comes (if c then p else q) := by
  split
  · exact hp
  · exact hq

end StM.Comes

theorem StM.Fine.comes {α : Type} {p : StM Dev α} (h : p.Fine) : p.Comes := fun d => (h d).1

theorem Val.readInto_comes {v : Val} (hv : v.Sane) (n : Nat) : (v.readInto n).Comes := by
  intro d
  unfold Val.readInto
  have h := Val.readExact_returns hv (List.replicate n 0) d
  generalize v.readExact (List.replicate n 0) d = q at h
  obtain ⟨x, ⟨v', d'⟩, b⟩ := q
  cases x with
  | ok u => exact .ok _
  | err e => exact .err _
  | panic p => exact .panic _
  | diverge => exact absurd rfl h.1

/-! ### Attributes -/

/-- What every attribute has: its list, if any, is sane. -/
def Attr.Sane (a : Attr) : Prop := ∀ l, a.list = some l → l.Sane

/-- What every item has. -/
def AttrItem.Sane (i : AttrItem) : Prop := ∀ l, i.list = some l → l.Sane

theorem Attr.new_list {f : NFile} {o : Nat} {l : Option AttrList} {a : Attr} (h : Attr.new f o l = .ok a) :
    a.list = l := by
  unfold Attr.new at h
  simp only [Res.bind_eq_ok] at h
  obtain ⟨_, _, h⟩ := h
  cases h
  rfl

theorem AttrItem.toAttribute_returns {i : AttrItem} (hi : i.Sane) :
    i.toAttribute.Returns ∧ ∀ a, i.toAttribute = .ok a → a.Sane := by
  unfold AttrItem.toAttribute
  cases i.valueFile with
  | none => exact ⟨Attr.new_returns _ _ _, fun a h l hl => hi l (by rw [← Attr.new_list h]; exact hl)⟩
  | some f => exact ⟨Attr.new_returns _ _ _, fun a h l hl => hi l (by rw [← Attr.new_list h]; exact hl)⟩

theorem Attr.inst_returns (a : Attr) : a.inst.Returns := readLE_returns _ _ _

theorem Attr.value_comes {a : Attr} (ha : a.Sane) :
    a.value.Comes ∧ ∀ d v d', a.value d = (.ok v, d') → v.Sane := by
  unfold Attr.value
  cases hl : a.list with
  | none =>
    dsimp only
    refine ⟨.bind (.lift a.simpleValue_returns.1) fun _ _ _ _ => .pure _, fun d v d' h => ?_⟩
    rw [StM.bind_ok_iff] at h
    obtain ⟨w, d1, h1, h⟩ := h
    rw [StM.lift_apply] at h1
    injection h1 with h1 _
    cases h
    exact a.simpleValue_returns.2 w h1
  | some l =>
    dsimp only
    refine ⟨.bind (.lift a.nonResidentValueDataSize_returns) fun _ _ _ _ => .bind (.lift a.inst_returns) fun _ _ _ _ =>
      .bind (.lift a.ty_returns) fun _ _ _ _ => .bind (ALVal.new_returns (ha l hl) _ _ _).1.comes fun _ _ _ _ => .pure _,
      fun d v d' h => ?_⟩
    rw [StM.bind_ok_iff] at h
    obtain ⟨size, d1, _, h⟩ := h
    rw [StM.bind_ok_iff] at h
    obtain ⟨i, d2, _, h⟩ := h
    rw [StM.bind_ok_iff] at h
    obtain ⟨t, d3, _, h⟩ := h
    rw [StM.bind_ok_iff] at h
    obtain ⟨w, d4, hw, h⟩ := h
    cases h
    exact (ALVal.new_returns (ha l hl) i t size).2 d3 w _ hw

theorem AttrList.ofValue_returns {v : Val} (hv : v.Sane) :
    (AttrList.ofValue v).Returns ∧ ∀ l, AttrList.ofValue v = .ok l → l.Sane := by
  match v with
  | .simple (.res v) => exact ⟨.ok _, fun l h => by cases h; exact trivial⟩
  | .simple (.nonRes v) => exact ⟨.ok _, fun l h => by cases h; exact hv⟩
  | .list v => exact ⟨.err _, fun l h => by cases h⟩

theorem Attr.attributeList_comes {a : Attr} (ha : a.Sane) :
    a.attributeList.Comes ∧ ∀ d l d', a.attributeList d = (.ok l, d') → l.Sane := by
  unfold Attr.attributeList
  constructor
  · exact .bind (.lift (a.ensureTy_returns _)) fun _ _ _ _ => .bind (a.value_comes ha).1 fun v d d' h =>
      .lift (AttrList.ofValue_returns ((a.value_comes ha).2 d v d' h)).1
  · intro d l d' h
    rw [StM.bind_ok_iff] at h
    obtain ⟨_, d1, _, h⟩ := h
    rw [StM.bind_ok_iff] at h
    obtain ⟨v, d2, hv, h⟩ := h
    rw [StM.lift_apply] at h
    injection h with h _
    exact (AttrList.ofValue_returns ((a.value_comes ha).2 d1 v d2 hv)).2 l h

/-! ### The attributes of a file -/

/-- What every iterator over attributes has. -/
def Attrs.Sane (it : Attrs) : Prop := ∀ l, it.list = some l → l.Sane

theorem Attrs.itemOf_comes (it : Attrs) {l : AttrList} (hl : l.Sane) (e : ListEntry) (t : AttrType) :
    (it.itemOf l e t).Comes ∧ ∀ d i s d', it.itemOf l e t d = (.ok (i, s), d') → i.Sane := by
  unfold Attrs.itemOf
  constructor
  · exact .bind (Ntfs.file_fine _ _).comes fun f _ _ _ => .bind (.lift (e.toAttribute_returns f)) fun a _ _ _ =>
      .bind (.lift a.isResident_returns) fun b _ _ _ => .ite (.pure _) (.pure _)
  · intro d i s d' h
    rw [StM.bind_ok_iff] at h
    obtain ⟨_, d1, _, h⟩ := h
    rw [StM.bind_ok_iff] at h
    obtain ⟨a, d2, hv, h⟩ := h
    rw [StM.bind_ok_iff] at h
    obtain ⟨b, d3, _, h⟩ := h
    split at h
    · cases h; intro l' h'; cases h'
    · cases h; intro l' h'; cases h'; exact hl

/-- The bytes of the current attribute list that are left. -/
def Attrs.listLeft (it : Attrs) : Nat :=
  match it.list with
  | some l => l.remaining
  | none => 0

theorem Attrs.nextInList_returns (fuel : Nat) (l : AttrList) (it : Attrs) (d : Dev) (hl : l.Sane)
    (hf : l.remaining < fuel) :
    (Attrs.nextInList fuel l (it, d)).1.Returns ∧ (Attrs.nextInList fuel l (it, d)).2.1.Sane ∧
      (Attrs.nextInList fuel l (it, d)).2.1.raw = it.raw ∧
      (Attrs.nextInList fuel l (it, d)).2.1.listLeft ≤ l.remaining ∧
      ∀ i, (Attrs.nextInList fuel l (it, d)).1 = .ok (some i) → i.Sane ∧
        (Attrs.nextInList fuel l (it, d)).2.1.listLeft < l.remaining := by
  induction fuel generalizing l it d with
  | zero => omega
  | succ fuel ih =>
    unfold Attrs.nextInList
    have h := AttrList.next_returns hl d
    have hr := AttrList.next_remaining l d
    have hp := fun e l' d' => C24_progress l l' d d' e
    dsimp only
    generalize AttrList.next (l, d) = q at h hr hp
    obtain ⟨x, l', d'⟩ := q
    obtain ⟨h1, h2, h3, h4⟩ := h
    dsimp only at h3 hr
    have hs : ∀ sk, Attrs.Sane { it with list := some l', skip := sk } := fun sk l h => by cases h; exact h3
    have hll : ∀ sk, Attrs.listLeft { it with list := some l', skip := sk } = l'.remaining := fun _ => rfl
    cases x with
    | ok o =>
      cases o with
      | none => exact ⟨.ok _, hs _, rfl, hr, fun i h => by cases h⟩
      | some e =>
        have hp := hp e l' d' rfl
        have hlt : l'.remaining < l.remaining := by omega
        dsimp only
        have ht := e.ty_returns
        generalize e.ty = t at ht
        have hrec : (Attrs.nextInList fuel l' ({ it with list := some l' }, d')).1.Returns ∧
            (Attrs.nextInList fuel l' ({ it with list := some l' }, d')).2.1.Sane ∧
            (Attrs.nextInList fuel l' ({ it with list := some l' }, d')).2.1.raw = it.raw ∧
            (Attrs.nextInList fuel l' ({ it with list := some l' }, d')).2.1.listLeft ≤ l.remaining ∧
            ∀ i, (Attrs.nextInList fuel l' ({ it with list := some l' }, d')).1 = .ok (some i) → i.Sane ∧
              (Attrs.nextInList fuel l' ({ it with list := some l' }, d')).2.1.listLeft < l.remaining := by
          obtain ⟨i1, i2, i3, i4, i5⟩ := ih l' { it with list := some l' } d' h3 (by omega)
          exact ⟨i1, i2, i3, by omega, fun i hi => ⟨(i5 i hi).1, by have := (i5 i hi).2; omega⟩⟩
        cases t with
        | ok t =>
          dsimp only
          by_cases c1 : e.ref.fileRecordNumber = it.raw.file.number
          · rw [if_pos c1]; exact hrec
          rw [if_neg c1]
          by_cases c2 : it.skip = some (e.inst, t)
          · rw [if_pos c2]; exact hrec
          rw [if_neg c2]
          have g := (Attrs.itemOf_comes it hl e t).1 d'
          have g' := (Attrs.itemOf_comes it hl e t).2 d'
          generalize it.itemOf l e t d' = q at g g'
          obtain ⟨x, d''⟩ := q
          cases x with
          | ok x =>
            obtain ⟨i, s⟩ := x
            exact ⟨.ok _, hs _, rfl, hr, fun j hj => by cases hj; exact ⟨g' _ _ _ rfl, hlt⟩⟩
          | err x => exact ⟨.err _, hs _, rfl, hr, fun i h => by cases h⟩
          | panic x => exact ⟨.panic _, hs _, rfl, hr, fun i h => by cases h⟩
          | diverge => exact absurd rfl g
        | err x => exact ⟨.err _, hs _, rfl, hr, fun i h => by cases h⟩
        | panic x => exact ⟨.panic _, hs _, rfl, hr, fun i h => by cases h⟩
        | diverge => exact absurd rfl ht
    | err x => exact ⟨.err _, hs _, rfl, hr, fun i h => by cases h⟩
    | panic x => exact ⟨.panic _, hs _, rfl, hr, fun i h => by cases h⟩
    | diverge => exact absurd rfl h1

theorem Attrs.nextFromList_returns {it : Attrs} (hs : it.Sane) (d : Dev) :
    (Attrs.nextFromList (it, d)).1.Returns ∧ (Attrs.nextFromList (it, d)).2.1.Sane ∧
      (Attrs.nextFromList (it, d)).2.1.raw = it.raw ∧
      (Attrs.nextFromList (it, d)).2.1.listLeft ≤ it.listLeft ∧
      ∀ i, (Attrs.nextFromList (it, d)).1 = .ok (some i) → i.Sane ∧
        (Attrs.nextFromList (it, d)).2.1.listLeft < it.listLeft := by
  unfold Attrs.nextFromList
  dsimp only
  cases hl : it.list with
  | none => exact ⟨.ok _, hs, rfl, Nat.le_refl _, fun i h => by cases h⟩
  | some l =>
    have e : it.listLeft = l.remaining := by unfold Attrs.listLeft; rw [hl]
    rw [e]
    exact Attrs.nextInList_returns _ l it d (hs l hl) (Nat.lt_succ_self _)

theorem Attr.residentValue_size {a : Attr} {v : ResVal} (h : a.residentValue = .ok v) :
    v.data.length ≤ a.recordData.length := by
  unfold Attr.residentValue at h
  simp only [Res.bind_eq_ok] at h
  obtain ⟨_, _, _, _, s, _, n, _, b, hb, h⟩ := h
  cases h
  unfold idxRange at hb
  cases hg : getRange a.recordData (a.offset + s) (a.offset + s + n) with
  | none => rw [hg] at hb; cases hb
  | some y =>
    rw [hg] at hb
    cases hb
    obtain ⟨_, _, rfl⟩ := getRange_isSome_iff.1 hg
    show (List.take _ _).length ≤ _
    rw [List.length_take, List.length_drop]
    omega

theorem NonRes.new_dataSize {cs : Nat} {data : Bytes} {p : Pos} {size : Nat} {v : NonRes}
    (h : NonRes.new cs data p size = .ok v) : v.st.dataSize = size := by
  unfold NonRes.new at h
  dsimp only at h
  have hs := NonRes.nextDataRun_keeps ⟨cs, data, p, DataRuns.new cs data p, StreamState.new size⟩
  generalize NonRes.nextDataRun _ = q at h hs
  obtain ⟨x, v'⟩ := q
  cases x with
  | ok b => cases h; exact hs.2
  | err e => cases h
  | panic e => cases h
  | diverge => cases h

/-- An attribute list is not longer than its field for the size can say, or than the record it is in. -/
theorem Attr.attributeList_size {a : Attr} (ha : a.list = none) {d d' : Dev} {l : AttrList}
    (h : a.attributeList d = (.ok l, d')) : l.remaining ≤ U64 + a.recordData.length := by
  unfold Attr.attributeList at h
  rw [StM.bind_ok_iff] at h
  obtain ⟨_, d1, _, h⟩ := h
  rw [StM.bind_ok_iff] at h
  obtain ⟨v, d2, hv, h⟩ := h
  rw [StM.lift_apply] at h
  injection h with h _
  unfold Attr.value at hv
  rw [ha] at hv
  dsimp only at hv
  rw [StM.bind_ok_iff] at hv
  obtain ⟨w, d3, hw, hv⟩ := hv
  rw [StM.lift_apply] at hw
  injection hw with hw _
  cases hv
  unfold Attr.simpleValue at hw
  rw [Res.bind_eq_ok] at hw
  obtain ⟨b, _, hw⟩ := hw
  split at hw
  · rw [Res.bind_eq_ok] at hw
    obtain ⟨x, hx, hw⟩ := hw
    cases hw
    cases h
    have := Attr.residentValue_size hx
    show x.data.length ≤ _
    omega
  · rw [Res.bind_eq_ok] at hw
    obtain ⟨x, hx, hw⟩ := hw
    cases hw
    cases h
    unfold Attr.nonResidentValue at hx
    simp only [Res.bind_eq_ok] at hx
    obtain ⟨_, _, size, hsize, hx⟩ := hx
    have hd := NonRes.new_dataSize hx
    unfold Attr.nonResidentValueDataSize at hsize
    rw [Res.bind_eq_ok] at hsize
    obtain ⟨_, _, hsize⟩ := hsize
    have : size < U64 := readLE_lt hsize
    show x.st.dataSize - x.st.streamPosition ≤ _
    omega

/-- A bound for the attributes that can still come. -/
def Attrs.left (it : Attrs) : Nat :=
  (it.raw.file.recordData.length - it.raw.start) * (U64 + it.raw.file.recordData.length + 1) + it.listLeft

theorem Attrs.nextLoop_returns (fuel : Nat) (it : Attrs) (d : Dev) (hs : it.Sane)
    (hf : it.raw.file.recordData.length - it.raw.start < fuel) :
    (Attrs.nextLoop fuel (it, d)).1.Returns ∧ (Attrs.nextLoop fuel (it, d)).2.1.Sane ∧
      (Attrs.nextLoop fuel (it, d)).2.1.raw.file = it.raw.file ∧
      (Attrs.nextLoop fuel (it, d)).2.1.left ≤ it.left ∧
      ∀ i, (Attrs.nextLoop fuel (it, d)).1 = .ok (some i) → i.Sane ∧
        (Attrs.nextLoop fuel (it, d)).2.1.left < it.left := by
  induction fuel generalizing it d with
  | zero => omega
  | succ fuel ih =>
    unfold Attrs.nextLoop
    rw [StM.bind_apply]
    have h := Attrs.nextFromList_returns hs d
    generalize Attrs.nextFromList (it, d) = q at h
    obtain ⟨x, it1, d1⟩ := q
    obtain ⟨h1, h2, h3, h4, h5⟩ := h
    dsimp only at h2 h3 h4 h5
    have hle : it1.left ≤ it.left := by
      unfold Attrs.left
      rw [h3]
      omega
    cases x with
    | ok o =>
      cases o with
      | some item =>
        refine ⟨.ok _, h2, by rw [← h3]; rfl, hle, fun i hi => ?_⟩
        cases hi
        obtain ⟨g1, g2⟩ := h5 item rfl
        refine ⟨g1, ?_⟩
        show it1.left < it.left
        unfold Attrs.left
        rw [h3]
        omega
      | none =>
        dsimp only
        rw [h3]
        have hle' : ∀ n, Attrs.left { it1 with raw := { it.raw with start := it.raw.start + n } } ≤ it.left := by
          intro n
          have : (it.raw.file.recordData.length - (it.raw.start + n)) * (U64 + it.raw.file.recordData.length + 1) ≤
              (it.raw.file.recordData.length - it.raw.start) * (U64 + it.raw.file.recordData.length + 1) :=
            Nat.mul_le_mul_right _ (by omega)
          unfold Attrs.left
          show _ * _ + it1.listLeft ≤ _
          dsimp only
          omega
        rcases it.raw.next_cases with ⟨_, e⟩ | ⟨len, ha, e⟩ | ⟨_, _, e⟩ <;> rw [e] <;> dsimp only
        · exact ⟨.ok _, h2, rfl, hle' 0, fun i hi => by cases hi⟩
        · have hlen := ha.header
          have hin := ha.inside
          have hraw : (it.raw.file.recordData.length - (it.raw.start + len) + 1) *
              (U64 + it.raw.file.recordData.length + 1) ≤
              (it.raw.file.recordData.length - it.raw.start) * (U64 + it.raw.file.recordData.length + 1) :=
            Nat.mul_le_mul_right _ (by omega)
          rw [Nat.add_mul] at hraw
          generalize hat : Attr.mk it.raw.file it.raw.start none = a
          have hal : a.list = none := by rw [← hat]
          have haf : a.recordData = it.raw.file.recordData := by rw [← hat]
          have hasane : a.Sane := fun l hl => by rw [hal] at hl; cases hl
          have ht := a.ty_returns
          have hplain : (Res.ok (some (AttrItem.mk it.raw.file none it.raw.start none)) : Res (Option AttrItem)).Returns ∧
              Attrs.Sane { it1 with raw := { it.raw with start := it.raw.start + len } } ∧
              it.raw.file = it.raw.file ∧
              Attrs.left { it1 with raw := { it.raw with start := it.raw.start + len } } ≤ it.left ∧
              ∀ i, (Res.ok (some (AttrItem.mk it.raw.file none it.raw.start none)) : Res (Option AttrItem)) = .ok (some i) →
                i.Sane ∧ Attrs.left { it1 with raw := { it.raw with start := it.raw.start + len } } < it.left := by
            refine ⟨.ok _, h2, rfl, hle' len, fun i hi => ?_⟩
            cases hi
            refine ⟨fun l hl => (by cases hl), ?_⟩
            unfold Attrs.left
            show _ * _ + it1.listLeft < _
            dsimp only
            omega
          cases hty : a.ty with
          | ok t =>
            by_cases hl : t = .attributeList
            · subst hl
              dsimp only
              have g := (a.attributeList_comes hasane).1 d1
              have g' := (a.attributeList_comes hasane).2 d1
              have gs := fun l d' => Attr.attributeList_size hal (d := d1) (d' := d') (l := l)
              generalize a.attributeList d1 = q at g g' gs
              obtain ⟨x, d2⟩ := q
              cases x with
              | ok l =>
                dsimp only
                have hls := g' l d2 rfl
                have hsz := gs l d2 rfl
                rw [haf] at hsz
                obtain ⟨i1, i2, i3, i5, i4⟩ := ih { it1 with raw := { it.raw with start := it.raw.start + len }, list := some l } d2
                  (fun l' h' => by cases h'; exact hls) (by dsimp only; omega)
                refine (fun hx => ⟨i1, i2, i3, Nat.le_trans i5 hx, fun i hi =>
                  ⟨(i4 i hi).1, Nat.lt_of_lt_of_le (i4 i hi).2 hx⟩⟩) ?_
                unfold Attrs.left
                show _ * _ + l.remaining ≤ _
                dsimp only
                omega
              | err x => exact ⟨.err _, h2, rfl, hle' _, fun i hi => by cases hi⟩
              | panic x => exact ⟨.panic _, h2, rfl, hle' _, fun i hi => by cases hi⟩
              | diverge => exact absurd rfl g
            · rw [← hat] at *
              cases t <;> first | exact absurd rfl hl | exact hplain
          | err x => rw [← hat] at *; exact hplain
          | panic x => exact ⟨.panic _, h2, rfl, hle' _, fun i hi => by cases hi⟩
          | diverge => exact absurd hty ht
        · exact ⟨.err _, h2, rfl, hle' 0, fun i hi => by cases hi⟩
    | err x => exact ⟨.err _, h2, by rw [← h3], hle, fun i hi => by cases hi⟩
    | panic x => exact ⟨.panic _, h2, by rw [← h3], hle, fun i hi => by cases hi⟩
    | diverge => exact absurd rfl h1

theorem Attrs.next_returns {it : Attrs} (hs : it.Sane) (d : Dev) :
    (Attrs.next (it, d)).1.Returns ∧ (Attrs.next (it, d)).2.1.Sane ∧
      (Attrs.next (it, d)).2.1.raw.file = it.raw.file ∧ (Attrs.next (it, d)).2.1.left ≤ it.left ∧
      ∀ i, (Attrs.next (it, d)).1 = .ok (some i) → i.Sane ∧ (Attrs.next (it, d)).2.1.left < it.left :=
  Attrs.nextLoop_returns _ it d hs (by omega)

theorem NFile.attributes_sane {f : NFile} {it : Attrs} (h : f.attributes = .ok it) :
    it.Sane ∧ it.raw.file = f ∧ it.listLeft = 0 := by
  unfold NFile.attributes at h
  rw [Res.bind_eq_ok] at h
  obtain ⟨raw, hr, h⟩ := h
  unfold NFile.attributesRaw at hr
  simp only [Res.bind_eq_ok] at hr
  obtain ⟨_, _, _, _, hr⟩ := hr
  cases hr
  cases h
  exact ⟨fun l hl => (by cases hl), rfl, rfl⟩

end NT
