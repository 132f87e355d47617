import Verif.Props.C23_Flatten
import Verif.Props.C25_IndexOrder
import Verif.Props.C52_IndexRecords
import Verif.Lemmas.Retry

/-! Calling an iterator again after the device has failed. -/

namespace NT

open Spec

/-- The results of `k` calls, one after the other. -/
def Spec.callsOf {σ α : Type} (next : StM (σ × Dev) α) : Nat → σ × Dev → List (Res α)
  | 0, _ => []
  | k + 1, s => (next s).1 :: callsOf next k (next s).2

/-- The state after `k` calls. -/
def Spec.afterCalls {σ α : Type} (next : StM (σ × Dev) α) : Nat → σ × Dev → σ
  | 0, s => s.1
  | k + 1, s => afterCalls next k (next s).2

/-- The results `rs` are the results `hs`, and between them any number of failures of the device. -/
inductive Spec.Retries {α : Type} (F : IoErr → Prop) : List (Res α) → List (Res α) → Prop
  | nil : Retries F [] []
  | shown (r : Res α) {hs rs : List (Res α)} : Retries F hs rs → Retries F (r :: hs) (r :: rs)
  | failed {e : IoErr} {hs rs : List (Res α)} : F e → Retries F hs rs → Retries F hs (.err (.io e) :: rs)

theorem Spec.Retries.mono {α : Type} {F G : IoErr → Prop} (h : ∀ e, F e → G e) {hs rs : List (Res α)}
    (k : Retries F hs rs) : Retries G hs rs := by
  induction k with
  | nil => exact .nil
  | shown r _ ih => exact .shown r ih
  | failed he _ ih => exact .failed (h _ he) ih

/-- A call either does what it does on a device that works, or reports a failure of the device and leaves the
state as it was. -/
def Retryable {σ α : Type} (I : σ → Prop) (next : StM (σ × Dev) α) : Prop :=
  ∀ s, I s → ∀ d : Dev, d.Calm → d.img.length < U64 →
    ∃ r s' d', I s' ∧ d.Later d' ∧
      (∀ e : Dev, e.Ok d.img → ∃ e', e'.Ok d.img ∧ next (s, e) = (r, (s', e'))) ∧
      (next (s, d) = (r, (s', d')) ∨ ∃ e, .fail e ∈ d.sched ∧ next (s, d) = (.err (.io e), (s, d')))

theorem Retryable.calls {σ α : Type} {I : σ → Prop} {next : StM (σ × Dev) α} (h : Retryable I next) (k : Nat) (s : σ)
    (hs : I s) (d e : Dev) (hd : d.Calm) (hi : d.img.length < U64) (he : e.Ok d.img) :
    ∃ m, m ≤ k ∧ Retries (fun x => .fail x ∈ d.sched) (callsOf next m (s, e)) (callsOf next k (s, d)) ∧
      afterCalls next k (s, d) = afterCalls next m (s, e) := by
  induction k generalizing s d e with
  | zero => exact ⟨0, Nat.le_refl _, .nil, rfl⟩
  | succ k ih =>
    obtain ⟨r, s', d', h1, h2, h3, h4⟩ := h s hs d hd hi
    rcases h4 with h4 | ⟨x, hx, h4⟩
    · obtain ⟨e', he', h5⟩ := h3 e he
      obtain ⟨m, g1, g2, g3⟩ := ih s' h1 d' e' (h2.calm hd) (by rw [h2.img]; exact hi) (by rw [h2.img]; exact he')
      refine ⟨m + 1, by omega, ?_, ?_⟩
      · simp only [callsOf, h4, h5]
        exact .shown r (g2.mono fun _ => h2.fails)
      · simp only [afterCalls, h4, h5]
        exact g3
    · obtain ⟨m, g1, g2, g3⟩ := ih s hs d' e (h2.calm hd) (by rw [h2.img]; exact hi) (by rw [h2.img]; exact he)
      refine ⟨m, by omega, ?_, ?_⟩
      · show Retries _ _ ((next (s, d)).1 :: callsOf next k (next (s, d)).2)
        rw [h4]
        exact .failed hx (g2.mono fun _ => h2.fails)
      · show afterCalls next k (next (s, d)).2 = _
        rw [h4]
        exact g3

/-! ### The entries of an attribute list -/

theorem AttrList.next_retryable : Retryable (fun _ => True) AttrList.next := by
  intro l _ d hd hi
  obtain ⟨⟨r, l'⟩, hb⟩ := (AttrList.next_rep l).settled d.img hi
  refine ⟨r, l', (AttrList.next (l, d)).2.2, trivial, AttrList.next_rep.later l hd, fun e he => ?_, ?_⟩
  · obtain ⟨e', h1, h2⟩ := hb e he
    exact ⟨e', h1, h2⟩
  -- it is enough that the result is that of the healed device
  have done : (AttrList.next (l, d)).1 = (AttrList.next (l, d.heal 0)).1 →
      (AttrList.next (l, d)).2.1 = (AttrList.next (l, d.heal 0)).2.1 →
      AttrList.next (l, d) = (r, (l', (AttrList.next (l, d)).2.2)) := by
    intro h1 h2
    obtain ⟨e', _, h3⟩ := hb (d.heal 0) (d.heal_ok 0)
    change AttrList.next (l, d.heal 0) = (r, (l', e')) at h3
    rw [h3] at h1 h2
    generalize AttrList.next (l, d) = q at h1 h2 ⊢
    obtain ⟨r2, l2, d2⟩ := q
    dsimp only at h1 h2
    rw [h1, h2]
  cases l with
  | resident s p => exact .inl (done rfl rfl)
  | nonResident v =>
    have hf := ListEntry.new_faithful (F := fun e => .fail e ∈ d.sched) (k := 0)
      (NonRes.readExactAttached_faithful (fun h => hd _ h rfl)) v.dataPosition (v, d) (fun _ h => h)
    by_cases hv : v.streamPosition ≥ v.len
    · refine .inl (done ?_ ?_) <;> simp only [AttrList.next, AttrList.nextNonResident, if_pos hv]
    rcases hf with ⟨_, g2⟩ | ⟨e, g1, g2⟩
    · refine .inl (done ?_ ?_)
      all_goals
        rw [OnDevice.heal_pair] at g2
        simp only [AttrList.next, AttrList.nextNonResident, if_neg hv]
        change ListEntry.new NonRes.readExactAttached v.dataPosition (v, d.heal 0) = _ at g2
        rw [g2]
        generalize ListEntry.new NonRes.readExactAttached v.dataPosition (v, d) = q
        obtain ⟨x, ⟨v', d'⟩⟩ := q
        cases x with
        | ok e =>
          rw [OnDevice.heal_pair]
          dsimp only
          generalize v.seek (.current e.length) = q
          obtain ⟨x, w⟩ := q
          cases x <;> rfl
        | err x => rfl
        | panic x => rfl
        | diverge => rfl
    · right
      refine ⟨e, g1, ?_⟩
      simp only [AttrList.next, AttrList.nextNonResident, if_neg hv]
      generalize ListEntry.new NonRes.readExactAttached v.dataPosition (v, d) = q at g2 ⊢
      obtain ⟨x, ⟨v', d'⟩⟩ := q
      dsimp only at g2
      rw [g2]

/-- **C68** for the entries of an attribute list: on a device that fails at any of its calls, `k` calls of `next`
give what `m` calls give on a device that works, and failures of the device between them. No entry is
lost, shown twice or changed; and the iterator is left where it is after `m` calls on the other device. -/
theorem C68_list_entries (l : AttrList) (k : Nat) (d e : Dev) (hd : d.Calm) (hi : d.img.length < U64)
    (he : e.Ok d.img) :
    ∃ m, m ≤ k ∧
      Retries (fun x => .fail x ∈ d.sched) (callsOf AttrList.next m (l, e)) (callsOf AttrList.next k (l, d)) ∧
      afterCalls AttrList.next k (l, d) = afterCalls AttrList.next m (l, e) :=
  AttrList.next_retryable.calls k l trivial d e hd hi he

/-! ### The records of an index allocation -/

/-- The allocation is one attribute, not split over an attribute list. -/
def IndexRecords.InOne (it : IndexRecords) : Prop := ∃ v, it.allocation.value = .simple v

theorem IndexRecords.next_retryable : Retryable IndexRecords.InOne IndexRecords.next := by
  rintro it ⟨sv, hsv⟩ d hd hi
  obtain ⟨⟨r, it'⟩, hb⟩ := (IndexRecords.next_rep it).settled d.img hi
  have done : (IndexRecords.next (it, d)).1 = (IndexRecords.next (it, d.heal 0)).1 →
      (IndexRecords.next (it, d)).2.1 = (IndexRecords.next (it, d.heal 0)).2.1 →
      IndexRecords.next (it, d) = (r, (it', (IndexRecords.next (it, d)).2.2)) := by
    intro h1 h2
    obtain ⟨e', _, h3⟩ := hb (d.heal 0) (d.heal_ok 0)
    change IndexRecords.next (it, d.heal 0) = (r, (it', e')) at h3
    rw [h3] at h1 h2
    generalize IndexRecords.next (it, d) = q at h1 h2 ⊢
    obtain ⟨r2, l2, d2⟩ := q
    dsimp only at h1 h2
    rw [h1, h2]
  have hone : IndexRecords.InOne it' := by
    obtain ⟨e', _, h3⟩ := hb (d.heal 0) (d.heal_ok 0)
    have h4 := congrArg (fun x => x.2.1) h3
    change (IndexRecords.next (it, d.heal 0)).2.1 = it' at h4
    rw [← h4]
    unfold IndexRecords.next
    dsimp only
    rw [hsv]
    split
    · exact ⟨sv, hsv⟩
    · generalize IndexRecord.new (.simple sv) it.size (d.heal 0) = q
      obtain ⟨x, d1⟩ := q
      cases x with
      | ok x =>
        dsimp only [Val.seek]
        generalize sv.seek (.current it.size) = q
        obtain ⟨y, w⟩ := q
        cases y <;> exact ⟨w, rfl⟩
      | err x => exact ⟨sv, hsv⟩
      | panic x => exact ⟨sv, hsv⟩
      | diverge => exact ⟨sv, hsv⟩
  refine ⟨r, it', (IndexRecords.next (it, d)).2.2, hone, IndexRecords.next_rep.later it hd, fun e he => hb e he, ?_⟩
  by_cases hv : it.allocation.value.streamPosition ≥ it.allocation.value.len
  · refine .inl (done ?_ ?_) <;> simp only [IndexRecords.next, if_pos hv]
  have hf := IndexRecord.new_faithful (F := fun e => .fail e ∈ d.sched) (k := 0) (fun h => hd _ h rfl)
    it.allocation.value it.size d (fun _ h => h)
  rcases hf with ⟨_, g2⟩ | ⟨e, g1, g2⟩
  · refine .inl (done ?_ ?_)
    all_goals
      change IndexRecord.new it.allocation.value it.size (d.heal 0) = _ at g2
      simp only [IndexRecords.next, if_neg hv]
      rw [g2]
      generalize IndexRecord.new it.allocation.value it.size d = q
      obtain ⟨x, d1⟩ := q
      cases x with
      | ok x =>
        dsimp only
        rw [hsv]
        dsimp only [Val.seek]
        generalize sv.seek (.current it.size) = q
        obtain ⟨y, w⟩ := q
        cases y <;> rfl
      | err x => rfl
      | panic x => rfl
      | diverge => rfl
  · right
    refine ⟨e, g1, ?_⟩
    simp only [IndexRecords.next, if_neg hv]
    generalize IndexRecord.new it.allocation.value it.size d = q at g2 ⊢
    obtain ⟨x, d1⟩ := q
    dsimp only at g2
    rw [g2]

/-- **C68** for the records of an index allocation that is one attribute. Missing: an allocation that is split over
an attribute list, where the position can be wrong after a failure (`C68_value_negation`). -/
theorem C68_records_partial (it : IndexRecords) (h : it.InOne) (k : Nat) (d e : Dev) (hd : d.Calm)
    (hi : d.img.length < U64) (he : e.Ok d.img) :
    ∃ m, m ≤ k ∧
      Retries (fun x => .fail x ∈ d.sched) (callsOf IndexRecords.next m (it, e)) (callsOf IndexRecords.next k (it, d)) ∧
      afterCalls IndexRecords.next k (it, d) = afterCalls IndexRecords.next m (it, e) :=
  IndexRecords.next_retryable.calls k it h d e hd hi he

/-! ### The entries of an index -/

/-- The results `rs` are the entries `es` in order, except that at each failure of the device some entries in
a row may be left out, together one of `lost`. -/
inductive Spec.Gappy (F : IoErr → Prop) (lost : List (List Ent)) : List Ent → List (Res (Option IEntry)) → Prop
  | nil (es : List Ent) : Gappy F lost es []
  | shown {e : Ent} {es : List Ent} {x : IEntry} {rs : List (Res (Option IEntry))} :
      x.Is e → Gappy F lost es rs → Gappy F lost (e :: es) (.ok (some x) :: rs)
  | ended {rs : List (Res (Option IEntry))} : Gappy F lost [] rs → Gappy F lost [] (.ok none :: rs)
  | failed {e : IoErr} {gone es : List Ent} {rs : List (Res (Option IEntry))} :
      F e → gone ∈ lost → Gappy F lost es rs → Gappy F lost (gone ++ es) (.err (.io e) :: rs)

theorem Spec.Gappy.mono {F G : IoErr → Prop} (h : ∀ e, F e → G e) {lost : List (List Ent)} {es : List Ent}
    {rs : List (Res (Option IEntry))} (k : Gappy F lost es rs) : Gappy G lost es rs := by
  induction k with
  | nil es => exact .nil es
  | shown hx _ ih => exact .shown hx ih
  | ended _ ih => exact .ended ih
  | failed he hg _ ih => exact .failed (h _ he) hg ih

theorem IndexEntries.calls_gaps {ix : Index} {img : Bytes} {R : Int → Bytes → Nat → Nat → Prop}
    {B : List (List Ent)} (hix : ix.LoadsBy img R) (fuel k : Nat) (it : IndexEntries) (d : Dev) (es : List Ent)
    (n : Nat) (h : BStack R B it.inner it.following es n) (hi : d.img = img) (hc : d.Calm) (hn : n < fuel) :
    Gappy (fun x => .fail x ∈ d.sched) B es (IndexEntries.calls ix fuel k (it, d)) := by
  induction k generalizing it d es n with
  | zero => exact .nil es
  | succ k ih =>
    obtain ⟨it', d', n', h1, h2, h3⟩ := IndexEntries.loop_gaps hix fuel it d es n h hi hc hn
    unfold IndexEntries.calls
    rcases h3 with ⟨h3, h4⟩ | ⟨e, gone, left, g1, g2, rfl, g4, g5⟩
    · have htail := (ih it' d' es.tail n' h3 (h1.img.trans hi) (h1.calm hc) (by omega)).mono fun _ => h1.fails
      cases es with
      | nil =>
        have e0 : IndexEntries.next ix fuel (it, d) = (.ok none, (it', d')) := by
          unfold IndexEntries.next
          rw [h4.1]
        rw [e0]
        exact .ended htail
      | cons e es =>
        obtain ⟨r, x, e1, e2, e3⟩ := h4
        have e0 : IndexEntries.next ix fuel (it, d) = (.ok (some x), (it', d')) := by
          unfold IndexEntries.next
          rw [e1]
          dsimp only
          rw [e2]
        rw [e0]
        exact .shown e3 htail
    · have e0 : IndexEntries.next ix fuel (it, d) = (.err (.io e), (it', d')) := by
        unfold IndexEntries.next
        rw [g2]
      rw [e0]
      exact .failed g1 g4
        ((ih it' d' left n' g5 (h1.img.trans hi) (h1.calm hc) (by omega)).mono fun _ => h1.fails)

/-- **C68**, what holds for the entries of an index: on a device that fails at any of its calls, repeated calls of
`next` show the entries of the tree in order, each at most once. A failure loses exactly one subnode with
everything below it and the entry that refers to it. Missing: that a failure loses nothing
(`C68_index_negation`). -/
theorem C68_index_gaps_partial {img : Bytes} {rootItem : AttrItem} {allocItem : Option AttrItem} {t : Node}
    (h : StoredIndex img rootItem allocItem t) :
    ∃ ix, Index.new rootItem allocItem = .ok ix ∧
      ∀ (fuel k : Nat) (d : Dev), t.entries + t.nodes < fuel → d.img = img → d.Calm →
        (IndexEntries.calls ix fuel k (IndexEntries.new ix, d)).length = k ∧
        Gappy (fun x => .fail x ∈ d.sched) t.branches t.inorder
          (IndexEntries.calls ix fuel k (IndexEntries.new ix, d)) := by
  obtain ⟨ix, e, ⟨R, h1, h2, h3⟩, _⟩ := h.new
  refine ⟨ix, e, fun fuel k d hf hi hc => ⟨?_, ?_⟩⟩
  · generalize (IndexEntries.new ix, d) = s
    clear hf hi hc
    induction k generalizing s with
    | zero => rfl
    | succ k ih => unfold IndexEntries.calls; dsimp only; rw [List.length_cons, ih]
  · exact IndexEntries.calls_gaps h1 fuel k _ d _ _ (.root h2 h3 fun _ hx => hx) hi hc hf

/-- The example directory with its four entries A, b, c, D: what a failure can lose. -/
example : exDirTree.inorder = [exEntA, exEntB, exEntC, exEntD] ∧
    exDirTree.branches = [[exEntA, exEntB], [exEntC, exEntD]] := ⟨rfl, rfl⟩

/-- The numbers of the files that the results show, and `none` for an error. -/
def exRetryShown (rs : List (Res (Option IEntry))) : List (Option (Option Nat)) :=
  rs.map fun
    | .ok (some x) => some (some (field x.slice 0 6))
    | .ok none => some none
    | _ => none

/-- **C68**, why the claim fails for the entries of an index: the first call of the device fails, all later ones
succeed. The call of `next` reports it, and the calls after it go on with the third entry. The first two are never
shown. -/
theorem C68_index_negation :
    exRetryShown (IndexEntries.calls (exDirIndex none) 20 6 (IndexEntries.new (exDirIndex none),
      ⟨exDirImage, 0, []⟩)) = [some (some 40), some (some 41), some (some 42), some (some 43), some none, some none] ∧
    exRetryShown (IndexEntries.calls (exDirIndex none) 20 6 (IndexEntries.new (exDirIndex none),
      ⟨exDirImage, 0, [.fail (.other 5)]⟩)) =
        [none, some (some 42), some (some 43), some none, some none, some none] := by
  refine ⟨?_, ?_⟩ <;> decide +kernel

/-! ### The attributes of a file -/

/-- The record numbers of the files that hold the shown attributes, and `none` for an error. -/
def exRetryFiles (rs : List (Res (Option AttrItem))) : List (Option (Option Nat)) :=
  rs.map fun
    | .ok (some x) => some (x.valueFile.map NFile.number)
    | .ok none => some none
    | _ => none

/-- **C68**, why the claim fails for the attributes of a file: the list has one entry that refers to record 1, and one
that refers to record 2. The device fails once, while record 1 is loaded. The call of `next` reports it, the call
after it shows the attribute in record 2, and the one in record 1 is never shown. -/
theorem C68_attributes_negation :
    exRetryFiles (callsOf Attrs.next 3 (⟨⟨exFlatFile 3, 56, 128⟩, none, none⟩, ⟨exFlatImage, 0, []⟩)) =
      [some (some 1), some none, some none] ∧
    exRetryFiles (callsOf Attrs.next 3 (⟨⟨exFlatFile 3, 56, 128⟩, none, none⟩,
      ⟨exFlatImage, 0, List.replicate 4 (.chunk 1000) ++ [.fail (.other 5)]⟩)) =
      [none, some (some 2), some none] ∧
    exRetryFiles (callsOf Attrs.next 3 (⟨⟨exFlatFile 3, 56, 128⟩, none, none⟩,
      ⟨exFlatImage, 0, [.fail (.other 5)]⟩)) =
      [none, some (some 1), some none] := by
  refine ⟨?_, ?_, ?_⟩ <;> decide +kernel

/-! ### The hypotheses can be met -/

/-- A list in a non-resident value, read over a device that fails twice: no entry is lost. -/
example : (match (Attr.attributeList ⟨exFlatFile 3, 56, none⟩ ⟨exFlatImage, 0, []⟩).1 with
    | .ok l =>
      (callsOf AttrList.next 5 (l, ⟨exFlatImage, 0, [.fail (.other 5), .chunk 9, .fail (.other 6)]⟩)).map
        (fun
          | .ok (some e) => some (some e.ref.fileRecordNumber)
          | .ok none => some none
          | _ => none)
    | _ => []) = [none, none, some (some 1), some (some 2), some none] := by decide +kernel

/-- The records of the index allocation of the example directory, read over a device that fails twice. -/
example : (match ((exDirAlloc none).value ⟨exDirImage, 0, []⟩).1 with
    | .ok (.simple v) =>
      (callsOf IndexRecords.next 5 (⟨⟨512, .simple v⟩, 512⟩,
        ⟨exDirImage, 0, [.fail (.other 5), .chunk 9, .fail (.other 6)]⟩)).map
        (fun
          | .ok (some _) => some true
          | .ok none => some false
          | _ => none)
    | _ => []) = [none, none, some true, some true, some false] := by decide +kernel

end NT
