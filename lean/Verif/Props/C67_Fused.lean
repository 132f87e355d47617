import Verif.Props.C23_Flatten
import Verif.Lemmas.ExDirectory

/-! C67: an iterator that has ended stays at its end, whatever happens to the device. The library promises this
(`FusedIterator`, `src/attribute.rs:689` and 772, `src/attribute_value/non_resident.rs:431`,
`src/index_entry.rs:364` and 436, `src/structured_values/index_allocation.rs:207`). -/

namespace NT

namespace Spec

/-- An iterator over a device that has ended for good: on every device, `next` says so, does not touch the device and
leaves the iterator as it is. -/
def Ended {σ α : Type} (next : StM (σ × Dev) (Option α)) (s : σ) : Prop :=
  ∀ d, next (s, d) = (.ok none, (s, d))

/-- The states of an iterator after any number of calls, each with a device of its own. -/
inductive After {σ α : Type} (next : StM (σ × Dev) (Option α)) (s0 : σ) : σ → Prop
  | start : After next s0 s0
  | call {s s' : σ} {d d' : Dev} {r : Res (Option α)} (h : After next s0 s) (e : next (s, d) = (r, (s', d'))) :
      After next s0 s'

end Spec

open Spec

/-! ### The iterators that need no device -/

/-- **C67**, data runs: once `next` has returned `None`, it returns `None` again, and the iterator does not change any
more. -/
theorem C67_data_runs (r : DataRuns) (h : r.next.1 = none) : r.next.2.next = (none, r.next.2) := by
  have ended : ∀ r : DataRuns, r.data.drop r.state.offset = [] → r.next = (none, r) := by
    intro r he
    unfold DataRuns.next
    rw [he]
  cases he : r.data.drop r.state.offset with
  | nil => rw [ended r he, ended r he]
  | cons header cursor =>
    by_cases h0 : header = 0
    · have h1 : r.next = (none, { r with state := { r.state with offset := r.data.length } }) := by
        unfold DataRuns.next
        rw [he]
        dsimp only
        rw [if_pos h0]
      rw [h1]
      exact ended _ List.drop_length
    · exfalso
      revert h
      unfold DataRuns.next
      rw [he]
      dsimp only
      rw [if_neg h0]
      repeat' split
      all_goals (intro h; cases h)

/-- **C67**, the attributes of a record. -/
theorem C67_attributes_raw (it : AttrsRaw) (h : it.next.1 = none) : it.next = (none, it) := by
  unfold AttrsRaw.next at h ⊢
  generalize getRange it.file.recordData it.start (it.start + 4) = x at h ⊢
  cases x with
  | none => rfl
  | some b =>
    dsimp only at h ⊢
    by_cases h0 : leNat b = AttrType.end_.code
    · rw [if_pos h0]
    · rw [if_neg h0] at h
      exfalso
      revert h
      repeat' split
      all_goals (intro h; cases h)

/-- **C67**, the entries of an index node: both iterators. -/
theorem C67_node (it : NodeEntries) (rs : NodeRanges) :
    (it.next.1 = .ok none → it.next = (.ok none, it)) ∧ (rs.next.1 = .ok none → rs.next = (.ok none, rs)) := by
  constructor
  · intro h
    unfold NodeEntries.next at h ⊢
    split at h
    · next h0 => rw [if_pos h0]
    · exfalso
      revert h
      split <;> (intro h; cases h)
  · intro h
    unfold NodeRanges.next at h ⊢
    split at h
    · next h0 => rw [if_pos h0]
    · exfalso
      revert h
      split <;> (intro h; cases h)

/-! ### The iterators over a device -/

theorem AttrList.ended {l l' : AttrList} {d d' : Dev} (h : AttrList.next (l, d) = (.ok none, (l', d'))) :
    l' = l ∧ d' = d ∧ Ended AttrList.next l := by
  cases l with
  | resident slice position =>
    have h1 : AttrList.nextResident slice position = (.ok none, slice, position) := by
      unfold AttrList.next at h
      dsimp only at h
      have h2 : (AttrList.nextResident slice position).1 = .ok none := congrArg (·.1) h
      unfold AttrList.nextResident at h2 ⊢
      split at h2
      · next h0 => rw [if_pos h0]
      · next h0 =>
        rw [if_neg h0]
        revert h2
        split
        · next he =>
          intro h2
          cases hg : getRange slice _ slice.length with
          | none => rfl
          | some rest => simp only [hg] at h2; cases h2
        all_goals (intro h2; cases h2)
    have h3 : ∀ d, AttrList.next (.resident slice position, d) = (.ok none, (.resident slice position, d)) := by
      intro d
      unfold AttrList.next
      dsimp only
      rw [h1]
    rw [h3] at h
    injection h with _ h
    injection h with h4 h5
    exact ⟨h4.symm, h5.symm, h3⟩
  | nonResident v =>
    have h1 : v.streamPosition ≥ v.len := by
      unfold AttrList.next at h
      dsimp only at h
      have h2 : (AttrList.nextNonResident v d).1 = .ok none := congrArg (·.1) h
      unfold AttrList.nextNonResident at h2
      split at h2
      · assumption
      · exfalso
        revert h2
        repeat' split
        all_goals (intro h2; cases h2)
    have h3 : ∀ d, AttrList.next (.nonResident v, d) = (.ok none, (.nonResident v, d)) := by
      intro d
      unfold AttrList.next AttrList.nextNonResident
      dsimp only
      rw [if_pos h1]
    rw [h3] at h
    injection h with _ h
    injection h with h4 h5
    exact ⟨h4.symm, h5.symm, h3⟩

/-- **C67**, the entries of an attribute list, resident or not. -/
theorem C67_list_entries (l l' : AttrList) (d d' : Dev) (h : AttrList.next (l, d) = (.ok none, (l', d'))) :
    Ended AttrList.next l' := by
  obtain ⟨rfl, _, h⟩ := AttrList.ended h
  exact h

/-- **C67**, the records of an index allocation. -/
theorem C67_records (it it' : IndexRecords) (d d' : Dev) (h : IndexRecords.next (it, d) = (.ok none, (it', d'))) :
    Ended IndexRecords.next it' := by
  have h1 : it.allocation.value.streamPosition ≥ it.allocation.value.len := by
    unfold IndexRecords.next at h
    dsimp only at h
    by_cases hc : it.allocation.value.streamPosition ≥ it.allocation.value.len
    · exact hc
    · rw [if_neg hc] at h
      exfalso
      revert h
      repeat' split
      all_goals (intro h; injection h with h _; cases h)
  have h3 : ∀ d, IndexRecords.next (it, d) = (.ok none, (it, d)) := by
    intro d
    unfold IndexRecords.next
    dsimp only
    rw [if_pos h1]
  rw [h3] at h
  injection h with _ h
  injection h with h4 h5
  rw [← h4]
  exact h3

theorem Attrs.nextInList_ended {fuel : Nat} {l : AttrList} {it it' : Attrs} {d d' : Dev}
    (h : Attrs.nextInList fuel l (it, d) = (.ok none, (it', d'))) :
    it'.raw = it.raw ∧ ∃ l', it'.list = some l' ∧ Ended AttrList.next l' := by
  induction fuel generalizing l it d with
  | zero => cases h
  | succ fuel ih =>
    unfold Attrs.nextInList at h
    dsimp only at h
    generalize hx : AttrList.next (l, d) = x at h
    obtain ⟨(_ | e) | e | e | _, l1, d1⟩ := x
    · injection h with _ h
      injection h with h1 h2
      subst h1
      exact ⟨rfl, l1, rfl, C67_list_entries _ _ _ _ hx⟩
    · dsimp only at h
      cases ht : e.ty with
      | ok t =>
        rw [ht] at h
        dsimp only at h
        split at h
        · exact ih (it := { it with list := some l1 }) h
        · split at h
          · exact ih (it := { it with list := some l1 }) h
          · exfalso
            revert h
            split <;> (intro h; injection h with h _; cases h)
      | err x => rw [ht] at h; injection h with h _; cases h
      | panic x => rw [ht] at h; injection h with h _; cases h
      | diverge => rw [ht] at h; injection h with h _; cases h
    all_goals (injection h with h _; cases h)

theorem Attrs.nextFromList_ended {it it' : Attrs} {d d' : Dev}
    (h : Attrs.nextFromList (it, d) = (.ok none, (it', d'))) :
    it'.raw = it.raw ∧ ∀ l', it'.list = some l' → Ended AttrList.next l' := by
  unfold Attrs.nextFromList at h
  dsimp only at h
  split at h
  · next hl =>
    injection h with _ h
    injection h with h1 h2
    subst h1
    refine ⟨rfl, fun l' h' => ?_⟩
    rw [hl] at h'
    cases h'
  · obtain ⟨h1, l', h2, h3⟩ := Attrs.nextInList_ended h
    refine ⟨h1, fun l h' => ?_⟩
    rw [h2] at h'
    injection h' with h'
    rw [← h']
    exact h3

/-- The state of `attributes` at the end. -/
theorem Attrs.nextLoop_ended {fuel : Nat} {it it' : Attrs} {d d' : Dev}
    (h : Attrs.nextLoop fuel (it, d) = (.ok none, (it', d'))) :
    it'.raw.next = (none, it'.raw) ∧ ∀ l', it'.list = some l' → Ended AttrList.next l' := by
  induction fuel generalizing it d with
  | zero => cases h
  | succ fuel ih =>
    unfold Attrs.nextLoop at h
    cases hf : Attrs.nextFromList (it, d) with
    | mk r s =>
      obtain ⟨it1, d1⟩ := s
      rcases r with (_ | item) | e | e | _
      · obtain ⟨g1, g2⟩ := Attrs.nextFromList_ended hf
        rw [StM.bind_of_ok hf] at h
        dsimp only at h
        generalize hx : it1.raw.next = x at h
        obtain ⟨x, raw'⟩ := x
        rcases x with _ | (a | e | e | _)
        · injection h with _ h
          injection h with h1 h2
          subst h1
          have h0 := C67_attributes_raw it1.raw (by rw [hx])
          rw [h0] at hx
          injection hx with _ hx
          subst hx
          exact ⟨h0, g2⟩
        · dsimp only at h
          split at h
          · split at h
            · exact ih h
            all_goals (injection h with h _; cases h)
          all_goals (injection h with h _; cases h)
        all_goals (injection h with h _; cases h)
      · rw [StM.bind_of_ok hf] at h
        injection h with h _
        cases h
      · rw [StM.bind_of_err hf] at h
        injection h with h _
        cases h
      all_goals
        have h' := congrArg Prod.fst h
        simp only [bind, StM.bind, hf] at h'
        cases h'

/-- **C67**, the attributes of a file with its attribute lists. -/
theorem C67_attributes (it it' : Attrs) (d d' : Dev) (h : Attrs.next (it, d) = (.ok none, (it', d'))) :
    Ended Attrs.next it' := by
  unfold Attrs.next at h
  obtain ⟨h1, h2⟩ := Attrs.nextLoop_ended h
  intro d
  have h3 : Attrs.nextFromList (it', d) = (.ok none, (it', d)) := by
    unfold Attrs.nextFromList
    dsimp only
    cases hl : it'.list with
    | none => rfl
    | some l =>
      unfold Attrs.nextInList
      dsimp only
      rw [h2 l hl d]
      dsimp only
      rw [← hl]
  show Attrs.nextLoop _ _ = _
  unfold Attrs.nextLoop
  rw [StM.bind_of_ok h3]
  dsimp only
  rw [h1]

/-- The two stacks of the index iterator fit, or it has ended. -/
def IndexEntries.Balanced (it : IndexEntries) : Prop :=
  it.inner.length = it.following.length + 1 ∨ (it.inner = [] ∧ it.following = [])

theorem IndexEntries.loop_balanced {ix : Index} {fuel : Nat} {it it' : IndexEntries} {d d' : Dev}
    {r : Res (Option EntryRange)} (hb : it.Balanced) (h : IndexEntries.loop ix fuel (it, d) = (r, (it', d'))) :
    it'.Balanced ∧ (r = .ok none → it'.inner = []) := by
  induction fuel generalizing it d with
  | zero =>
    injection h with h1 h2
    injection h2 with h2 _
    subst h1 h2
    exact ⟨hb, fun h => by cases h⟩
  | succ fuel ih =>
    unfold IndexEntries.loop at h
    dsimp only at h
    rcases hi : it.inner with _ | ⟨top, below⟩
    · rw [hi] at h
      injection h with h1 h2
      injection h2 with h2 _
      subst h2
      exact ⟨hb, fun _ => hi⟩
    · have hlen : below.length = it.following.length := by
        rcases hb with hb | ⟨hb, _⟩
        · rw [hi, List.length_cons] at hb
          omega
        · rw [hi] at hb
          cases hb
      rw [hi] at h
      dsimp only at h
      have same : ∀ top', ({ it with inner := top' :: below } : IndexEntries).Balanced :=
        fun top' => .inl (by show below.length + 1 = _; rw [hlen])
      have stop : ∀ {top' : NodeRanges} {x : Res (Option EntryRange)} {d1 : Dev}, x ≠ .ok none →
          (x, (({ it with inner := top' :: below } : IndexEntries), d1)) = (r, (it', d')) →
          it'.Balanced ∧ (r = .ok none → it'.inner = []) := by
        intro top' x d1 hx he
        injection he with h1 h2
        injection h2 with h2 _
        subst h1 h2
        exact ⟨same _, fun h => absurd h hx⟩
      generalize top.next = y at h
      obtain ⟨(_ | e) | e | e | _, top'⟩ := y
      · dsimp only at h
        rcases hf : it.following with _ | ⟨_ | e, rest⟩
        · rw [hf] at h hlen
          injection h with h1 h2
          injection h2 with h2 _
          subst h1 h2
          have hn := List.eq_nil_of_length_eq_zero hlen
          exact ⟨.inr ⟨hn, rfl⟩, fun _ => hn⟩
        · rw [hf] at h hlen
          exact ih (.inl (by simpa using hlen)) h
        · rw [hf] at h hlen
          injection h with h1 h2
          injection h2 with h2 _
          subst h1 h2
          exact ⟨.inl (by simpa using hlen), fun h => by cases h⟩
      · dsimp only at h
        generalize IndexEntries.inspect e top'.data = z at h
        obtain ⟨last, _ | vcn⟩ | e1 | e1 | _ := z
        · dsimp only at h
          split at h
          · exact ih (same top') h
          · exact stop (fun h => by cases h) h
        · dsimp only at h
          generalize ix.subnode vcn d = w at h
          obtain ⟨sub | e1 | e1 | _, d1⟩ := w
          · exact ih (.inl (by simp [hlen])) h
          all_goals exact stop (fun h => by cases h) h
        all_goals exact stop (fun h => by cases h) h
      all_goals exact stop (fun h => by cases h) h

theorem IndexEntries.next_balanced {ix : Index} {fuel : Nat} {it it' : IndexEntries} {d d' : Dev}
    {r : Res (Option IEntry)} (hb : it.Balanced) (h : IndexEntries.next ix fuel (it, d) = (r, (it', d'))) :
    it'.Balanced ∧ (r = .ok none → it'.inner = []) := by
  unfold IndexEntries.next at h
  generalize hx : IndexEntries.loop ix fuel (it, d) = x at h
  obtain ⟨x, it1, d1⟩ := x
  obtain ⟨h1, h2⟩ := IndexEntries.loop_balanced hb hx
  have done : ∀ {y : Res (Option IEntry)}, (y, (it1, d1)) = (r, (it', d')) → (y = .ok none → x = .ok none) →
      it'.Balanced ∧ (r = .ok none → it'.inner = []) := by
    intro y he hy
    injection he with e1 e2
    injection e2 with e2 _
    subst e1 e2
    exact ⟨h1, fun h => h2 (hy h)⟩
  rcases x with (_ | e) | e | e | _
  · exact done h fun _ => rfl
  · dsimp only at h
    generalize IndexEntries.entryOf e it1 = z at h
    cases z <;> exact done h (fun h => by cases h)
  all_goals exact done h (fun h => by cases h)

/-- **C67**, the entries of an index, after any calls on any devices. (The code does not declare this iterator as
fused, but it is.) -/
theorem C67_index_entries (ix : Index) (fuel : Nat) (it it' : IndexEntries) (d d' : Dev)
    (hr : After (IndexEntries.next ix fuel) (IndexEntries.new ix) it)
    (h : IndexEntries.next ix fuel (it, d) = (.ok none, (it', d'))) (n : Nat) :
    Ended (IndexEntries.next ix (n + 1)) it' := by
  have hb : it.Balanced := by
    clear h
    induction hr with
    | start => exact .inl rfl
    | call _ e ih => exact (IndexEntries.next_balanced ih e).1
  have h1 := (IndexEntries.next_balanced hb h).2 rfl
  intro d
  unfold IndexEntries.next IndexEntries.loop
  dsimp only
  rw [h1]

/-! ### The hypotheses can be met -/

/-- A run, then the zero byte: the second call returns `None`. -/
example : let r : DataRuns := ⟨4, [0x11, 3, 5, 0, 7], none, ⟨0, 0⟩⟩
    r.next.1 = some (.ok ⟨some 20, 12, 0⟩) ∧ r.next.2.next.1 = none := by decide

set_option maxRecDepth 20000 in
/-- The attributes of a record: one, then the end. -/
example : let it : AttrsRaw := ⟨exFlatFile 3, 56, 128⟩
    (∃ a, it.next.1 = some (.ok a)) ∧ it.next.2.next.1 = none :=
  ⟨⟨⟨exFlatFile 3, 56, none⟩, by decide +kernel⟩, by decide +kernel⟩

/-- An index node with an entry and the end marker. -/
example : let b : Bytes := [1, 0, 0, 0, 0, 0, 0, 0, 16, 0, 0, 0, 0, 0, 0, 0] ++
      [0, 0, 0, 0, 0, 0, 0, 0, 16, 0, 0, 0, 2, 0, 0, 0]
    let it : NodeEntries := ⟨b, none⟩
    let rs : NodeRanges := ⟨b, 0, 32, none⟩
    (∃ e, it.next.1 = .ok (some e)) ∧ it.next.2.next.2.next.1 = .ok none ∧
    (∃ e, rs.next.1 = .ok (some e)) ∧ rs.next.2.next.2.next.1 = .ok none :=
  ⟨⟨⟨[1, 0, 0, 0, 0, 0, 0, 0, 16, 0, 0, 0, 0, 0, 0, 0], none⟩, by decide⟩, by decide,
    ⟨⟨0, 16, none⟩, by decide⟩, by decide⟩

/-- A resident attribute list with one entry. -/
example : let l : AttrList := .resident ([128, 0, 0, 0, 26, 0, 0, 26] ++ List.replicate 18 0) none
    let d : Dev := ⟨[], 0, []⟩
    (AttrList.next (l, d)).1 ≠ .ok none ∧
    (AttrList.next (AttrList.next (l, d)).2).1 = .ok none := by decide

set_option maxRecDepth 20000 in
/-- The two records of the index allocation of the example directory, then the end. -/
example : let d : Dev := ⟨exDirImage, 0, []⟩
    (match ((exDirAlloc none).indexAllocation d).1 with
    | .ok x =>
      let n := IndexRecords.next
      let s := (x.records 512, d)
      decide ((n (n s).2).1 ≠ .ok none) && decide ((n (n (n s).2).2).1 = .ok none)
    | _ => false) = true := by
  decide +kernel

set_option maxRecDepth 20000 in
/-- A file with an attribute list: one item, then the end. -/
example : let it : Attrs := ⟨⟨exFlatFile 3, 56, 128⟩, none, none⟩
    let d : Dev := ⟨exFlatImage, 0, []⟩
    (Attrs.next (it, d)).1 ≠ .ok none ∧ (Attrs.next (Attrs.next (it, d)).2).1 = .ok none :=
  ⟨by decide +kernel, by decide +kernel⟩

theorem Spec.After.step {σ α : Type} {next : StM (σ × Dev) (Option α)} {s0 : σ} (s : σ × Dev) (h : After next s0 s.1) :
    After next s0 (next s).2.1 :=
  .call h rfl

set_option maxRecDepth 20000 in
/-- The four entries of the example directory, then the end. -/
example : let n := IndexEntries.next (exDirIndex none) 20
    let s := (IndexEntries.new (exDirIndex none), (⟨exDirImage, 0, []⟩ : Dev))
    (n (n (n s).2).2).1 ≠ .ok none ∧
    (n (n (n (n (n s).2).2).2).2).1 = .ok none ∧
    After n (IndexEntries.new (exDirIndex none)) (n (n (n (n s).2).2).2).2.1 :=
  ⟨by decide +kernel, by decide +kernel, .step _ (.step _ (.step _ (.step _ .start)))⟩

end NT
