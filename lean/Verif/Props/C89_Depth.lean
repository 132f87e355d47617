import Verif.Props.C27_Acyclic
import Verif.Props.C89_Buffers

/-! C89: what an iteration over an index without cycles holds. -/

namespace NT

open Spec

/-- The states of an iteration over an image: any number of calls of `next`, each over any device with the bytes of the
image, which may fail but does not interrupt. -/
inductive Spec.IteratedOn (ix : Index) (img : Bytes) : IndexEntries → Prop
  | start : IteratedOn ix img (IndexEntries.new ix)
  | next {it : IndexEntries} (fuel : Nat) (d : Dev) (h : IteratedOn ix img it) (hc : d.Calm) (hd : d.img = img) :
    IteratedOn ix img (IndexEntries.next ix fuel (it, d)).2.1

/-- Every record that can be met leads only to records of smaller height, and those below the root have a height below `depth`. -/
structure Spec.Heights (ix : Index) (img : Bytes) (height : Int → Nat) (depth : Nat) : Prop where
  root : ∀ v, HasSubnode ix.rootRanges v → height v < depth
  step : ∀ v w, Met ix img v → Leads ix img v w → height w < height v

/-- A stack of nodes with room for what is below its top. -/
inductive Tower (S : Int → Prop) (height : Int → Nat) (depth : Nat) : List NodeRanges → Prop
  | nil : Tower S height depth []
  | cons {n : NodeRanges} {below : List NodeRanges} {k : Nat} (hs : n.stop ≤ n.data.length)
      (h : ∀ v, HasSubnode n v → S v ∧ height v < k) (hk : below.length + k ≤ depth) (hb : Tower S height depth below) :
      Tower S height depth (n :: below)

theorem Tower.length {S : Int → Prop} {height : Int → Nat} {depth : Nat} {l : List NodeRanges} (h : Tower S height depth l) :
    l.length ≤ depth + 1 := by
  cases h with
  | nil => simp
  | cons hs h hk hb => rw [List.length_cons]; omega

theorem Index.subnode_heights {ix : Index} {img : Bytes} (hi : img.length < U64) {height : Int → Nat} {depth : Nat}
    (hh : Heights ix img height depth) {v : Int} {d d' : Dev} {sub : NodeRanges} (hv : Met ix img v) (hc : d.Calm) (hd : d.img = img)
    (e : ix.subnode v d = (.ok sub, d')) :
    d'.Calm ∧ d'.img = img ∧ sub.stop ≤ sub.data.length ∧ ∀ w, HasSubnode sub w → Met ix img w ∧ height w < height v := by
  have hm : ∀ w, Leads ix img v w → Met ix img w := by
    intro w hw
    obtain ⟨u, h1, h2⟩ := hv
    exact ⟨u, h1, h2.tail hw⟩
  obtain ⟨r, hr⟩ := (Index.subnode_rep ix v).one img hi
  have hfi : d.FailsIn (· ≠ .interrupted) := fun x hx => by
    rintro rfl
    exact hc _ hx rfl
  obtain ⟨g1, g2⟩ := Index.subnode_stop e
  rcases Index.subnode_faithful (F := (· ≠ .interrupted)) (k := 0) (fun h => h rfl) ix v d hfi with ⟨f1, f2⟩ | ⟨x, _, f2⟩
  · rw [e] at f1 f2
    have hok : (d.heal 0).Ok img := by rw [← hd]; exact Dev.heal_ok 0 d
    rw [OnDevice.heal_dev, OnDevice.heal_dev] at f2
    have h3 := hr _ hok.1 hok.2
    rw [f2] at h3
    refine ⟨fun x hx => ?_, h3.2.1, g1, fun w hw => ?_⟩
    · rintro rfl
      exact f1 _ hx rfl
    · have hl : Leads ix img v w := ⟨_, sub, _, hok, f2, hw⟩
      exact ⟨hm w hl, hh.step v w hv hl⟩
  · rw [e] at f2
    cases f2

theorem NodeRanges.next_same {n n' : NodeRanges} {r : Res (Option EntryRange)} (h : n.next = (r, n'))
    (hr : ∀ x, r ≠ .ok (some x)) : n' = n := by
  unfold NodeRanges.next at h
  split at h
  · exact (Prod.mk.inj h).2.symm
  · split at h
    · exact absurd (Prod.mk.inj h).1.symm (hr _)
    · exact (Prod.mk.inj h).2.symm
    · exact (Prod.mk.inj h).2.symm
    · exact (Prod.mk.inj h).2.symm

theorem IndexEntries.loop_tower {ix : Index} {img : Bytes} (hi : img.length < U64) {height : Int → Nat} {depth : Nat}
    (hh : Heights ix img height depth) (fuel : Nat) (it : IndexEntries) (d : Dev) (hc : d.Calm) (hd : d.img = img)
    (h : Tower (Met ix img) height depth it.inner) : Tower (Met ix img) height depth (IndexEntries.loop ix fuel (it, d)).2.1.inner := by
  induction fuel generalizing it d with
  | zero => exact h
  | succ fuel ih =>
    unfold IndexEntries.loop
    dsimp only
    obtain ⟨inner, following⟩ := it
    cases h with
    | nil => exact .nil
    | @cons top below k hs hv hk hb =>
      dsimp only
      have hsome := fun n' r => NodeRanges.next_some (n := top) (n' := n') (r := r) hs
      have hsame := fun r n' => NodeRanges.next_same (n := top) (n' := n') (r := r)
      generalize NodeRanges.next top = q at hsome hsame
      obtain ⟨r, top'⟩ := q
      cases r with
      | ok o =>
        cases o with
        | some r =>
          obtain ⟨_, s2, s3, s4, s5⟩ := hsome top' r rfl
          have h' : Tower (Met ix img) height depth (top' :: below) := .cons (by rw [s2, s3]; exact hs) (fun v h => hv v (s4 v h)) hk hb
          dsimp only
          generalize hi : IndexEntries.inspect r top'.data = w
          cases w with
          | ok w =>
            obtain ⟨last, vcn⟩ := w
            cases vcn with
            | some vcn =>
              dsimp only
              cases hsub : ix.subnode vcn d with
              | mk r d' =>
                cases r with
                | ok sub =>
                  obtain ⟨g1, g2, g3, g4⟩ := Index.subnode_heights ‹_› hh (hv vcn (s5 last vcn hi)).1 hc hd hsub
                  have := (hv vcn (s5 last vcn hi)).2
                  exact ih _ _ g1 g2 (.cons g3 g4 (by rw [List.length_cons]; omega) h')
                | err e => exact h'
                | panic p => exact h'
                | diverge => exact h'
            | none =>
              dsimp only
              cases last with
              | true => rw [if_pos rfl]; exact ih _ _ hc hd h'
              | false => rw [if_neg Bool.false_ne_true]; exact h'
          | err e => exact h'
          | panic p => exact h'
          | diverge => exact h'
        | none =>
          cases following with
          | nil => exact hb
          | cons f rest =>
            cases f with
            | some r => exact hb
            | none => exact ih _ _ hc hd hb
      | err e => rw [hsame _ top' rfl nofun]; exact .cons hs hv hk hb
      | panic p => rw [hsame _ top' rfl nofun]; exact .cons hs hv hk hb
      | diverge => rw [hsame _ top' rfl nofun]; exact .cons hs hv hk hb

theorem Spec.IteratedOn.iterated {ix : Index} {img : Bytes} {it : IndexEntries} (h : IteratedOn ix img it) :
    Iterated ix it := by
  induction h with
  | start => exact .start
  | next fuel d _ _ _ ih => exact .next fuel d ih

theorem Index.depth_bound {ix : Index} (hs : ix.rootRanges.stop ≤ ix.rootRanges.data.length) {img : Bytes} (hi : img.length < U64) {height : Int → Nat}
    {depth : Nat} (hh : Heights ix img height depth) {it : IndexEntries} (h : IteratedOn ix img it) :
    it.inner.length ≤ depth + 1 ∧ heldBytes it ≤ ix.rootRanges.data.length + depth * ix.recordSize := by
  have ht : Tower (Met ix img) height depth it.inner := by
    induction h with
    | start => exact .cons hs (fun v h => ⟨⟨v, h, .refl⟩, hh.root v h⟩) (by simp) .nil
    | next fuel d _ hc hd ih =>
      rw [IndexEntries.next_state]
      exact IndexEntries.loop_tower hi hh fuel _ d hc hd ih
  have hl := ht.length
  refine ⟨hl, ?_⟩
  rcases C89_held h.iterated with h0 | h0
  · unfold heldBytes
    rw [h0]
    simp
  · rw [h0]
    exact Nat.add_le_add_left (Nat.mul_le_mul_right _ (by omega)) _

/-- **C89, partial.** If no way down from the root of an index meets more than `depth` records, every iteration over it
holds at most that many index records besides the root. -/
theorem C89_depth_partial {ix : Index} (ho : Obtained (.index ix)) {img : Bytes} (hi : img.length < U64)
    {height : Int → Nat} {depth : Nat} (hh : Heights ix img height depth) {it : IndexEntries}
    (h : IteratedOn ix img it) :
    it.inner.length ≤ depth + 1 ∧ heldBytes it ≤ ix.rootRanges.data.length + depth * ix.recordSize :=
  Index.depth_bound ho.sane.2 hi hh h

/-! ### Trees -/

theorem Spec.Node.one_le_depth (t : Node) : 1 ≤ t.depth := by
  induction t with
  | stop => exact Nat.le_refl _
  | last => exact Nat.le_refl _
  | lastSub sub _ => unfold Node.depth; omega
  | leaf e rest ih => unfold Node.depth; exact ih
  | inner sub e rest _ ih => unfold Node.depth; omega

/-- The subnodes of a node of a tree are roots of less deep trees. -/
theorem Spec.NodeAt.points_depth {R : Int → Bytes → Nat → Nat → Prop} {d : Bytes} {off stop : Nat} {t : Node}
    (ht : NodeAt R d off stop t) {v : Int} (hv : Points d stop off v) :
    ∃ d' off' stop' sub, R v d' off' stop' ∧ NodeAt R d' off' stop' sub ∧ 1 ≤ sub.depth ∧ sub.depth < t.depth := by
  induction ht with
  | stop h =>
    cases hv <;> omega
  | last h hin he =>
    obtain ⟨e1, e2, e3⟩ := EntryHeader.facts hin he
    cases hv with
    | @here _ len _ _ h' hin' he' =>
      obtain ⟨f1, f2, f3⟩ := EntryHeader.facts hin' he'
      rw [e3] at f3
      exact absurd f3 (by revert f3; cases ‹Bool› <;> simp)
    | later h' hin' hlen hn hv =>
      simp at e3
      omega
  | @lastSub d off stop len w d' off' stop' sub h hin he hr hs ih =>
    obtain ⟨e1, e2, e3⟩ := EntryHeader.facts hin he
    cases hv with
    | @here _ len' _ _ h' hin' he' =>
      obtain ⟨f1, f2, f3⟩ := EntryHeader.facts hin' he'
      have hl : len' = len := f2.symm.trans e2
      subst hl
      have := IntAt.unique (he.vcn _ rfl) (he'.vcn _ rfl)
      subst this
      exact ⟨_, _, _, _, hr, hs, sub.one_le_depth, by simp only [Node.depth]; omega⟩
    | later h' hin' hlen hn hv =>
      simp at e3
      omega
  | @leaf d off stop len e rest h hin he ht ih =>
    obtain ⟨e1, e2, e3⟩ := EntryHeader.facts hin he.toEntryHeader
    cases hv with
    | @here _ len _ _ h' hin' he' =>
      obtain ⟨f1, f2, f3⟩ := EntryHeader.facts hin' he'
      rw [e3] at f3
      exact absurd f3 (by revert f3; cases ‹Bool› <;> simp)
    | later h' hin' hlen hn hv =>
      rw [e2] at hv
      obtain ⟨d', off', stop', sub, g1, g2, g3⟩ := ih hv
      exact ⟨_, _, _, _, g1, g2, g3.1, by simp only [Node.depth]; omega⟩
  | @inner d off stop len w d' off' stop' sub e rest h hin he hr hs ht ih1 ih2 =>
    obtain ⟨e1, e2, e3⟩ := EntryHeader.facts hin he.toEntryHeader
    cases hv with
    | @here _ len' _ _ h' hin' he' =>
      obtain ⟨f1, f2, f3⟩ := EntryHeader.facts hin' he'
      have hl : len' = len := f2.symm.trans e2
      subst hl
      have := IntAt.unique (he.vcn _ rfl) (he'.vcn _ rfl)
      subst this
      exact ⟨_, _, _, _, hr, hs, sub.one_le_depth, by simp only [Node.depth]; omega⟩
    | later h' hin' hlen hn hv =>
      rw [e2] at hv
      obtain ⟨d', off', stop', sub, g1, g2, g3⟩ := ih2 hv
      exact ⟨_, _, _, _, g1, g2, g3.1, by simp only [Node.depth]; omega⟩

theorem Index.new_root_stop {r : AttrItem} {a : Option AttrItem} {ix : Index} (h : Index.new r a = .ok ix) :
    ix.rootRanges.stop ≤ ix.rootRanges.data.length := by
  unfold Index.new at h
  simp only [Res.bind_eq_ok] at h
  obtain ⟨_, _, _, _, root, _, _, _, _, _, rr, h1, h⟩ := h
  cases h
  unfold IndexRoot.entryRanges NodeRanges.new at h1
  simp only [Res.bind_eq_ok] at h1
  obtain ⟨_, _, _, _, h1⟩ := h1
  split at h1
  · cases h1
    assumption
  · cases h1

/-- **C89, partial.** Iterations over an index that is stored as a tree never hold more nodes than the tree is deep. -/
theorem C89_tree_partial {img : Bytes} (hi : img.length < U64) {rootItem : AttrItem} {allocItem : Option AttrItem}
    {t : Node} (h : StoredIndex img rootItem allocItem t) :
    ∃ ix, Index.new rootItem allocItem = .ok ix ∧ ∀ it, IteratedOn ix img it →
      it.inner.length ≤ t.depth ∧ heldBytes it ≤ ix.rootRanges.data.length + (t.depth - 1) * ix.recordSize := by
  classical
  obtain ⟨ix, e, ⟨R, h1, h2, h3⟩, _⟩ := h.new
  refine ⟨ix, e, ?_⟩
  let T (v : Int) (n : Nat) : Prop :=
    ∃ d off stop sub, R v d off stop ∧ NodeAt R d off stop sub ∧ sub.depth = n
  have step : ∀ {n v w}, T v n → Leads ix img v w → ∃ m, m < n ∧ T w m := by
    rintro n v w ⟨d, off, stop, sub, hR, hN, rfl⟩ ⟨dev, s, dev', hd, es, hs⟩
    obtain ⟨p, dev1, e1, _⟩ := (h1 _ _ _ _ hR).2 dev hd
    rw [es] at e1
    cases (Prod.mk.inj e1).1
    obtain ⟨d', off', stop', sub', g1, g2, _, g3⟩ := hN.points_depth hs
    exact ⟨_, g3, _, _, _, _, g1, g2, rfl⟩
  have hpos : ∀ {v n}, T v n → 1 ≤ n := by
    rintro v n ⟨_, _, _, sub, _, _, rfl⟩
    exact sub.one_le_depth
  have hmet : ∀ {v}, Met ix img v → ∃ n, T v n := by
    intro v ⟨u, hu, huv⟩
    induction huv with
    | refl =>
      obtain ⟨_, _, _, _, g1, g2, _⟩ := h3.points_depth hu
      exact ⟨_, _, _, _, _, g1, g2, rfl⟩
    | tail _ hl ih =>
      obtain ⟨n, hn⟩ := ih
      obtain ⟨m, _, hm⟩ := step hn hl
      exact ⟨m, hm⟩
  let height (v : Int) : Nat := if hv : ∃ n, T v n then Nat.find hv - 1 else 0
  have ht := t.one_le_depth
  have hh : Heights ix img height (t.depth - 1) := by
    constructor
    · intro v hv
      obtain ⟨_, _, _, sub, g1, g2, _, g3⟩ := h3.points_depth hv
      have hT : T v sub.depth := ⟨_, _, _, _, g1, g2, rfl⟩
      have hex : ∃ n, T v n := ⟨_, hT⟩
      have hle := Nat.find_min' hex hT
      have := hpos (Nat.find_spec hex)
      show (if hv : ∃ n, T v n then Nat.find hv - 1 else 0) < _
      rw [dif_pos hex]
      omega
    · intro v w hv hl
      have hex := hmet hv
      obtain ⟨m, hm, hT⟩ := step (Nat.find_spec hex) hl
      have hew : ∃ n, T w n := ⟨_, hT⟩
      have hle := Nat.find_min' hew hT
      have := hpos (Nat.find_spec hew)
      show (if hv : ∃ n, T w n then Nat.find hv - 1 else 0) < (if hv : ∃ n, T v n then Nat.find hv - 1 else 0)
      rw [dif_pos hex, dif_pos hew]
      omega
  intro it hit
  obtain ⟨b1, b2⟩ := Index.depth_bound (Index.new_root_stop e) hi hh hit
  exact ⟨by omega, b2⟩

/-! ### Examples -/

/-- The example directory with two index records. -/
example := C89_tree_partial (by decide +kernel) (exDir_storedIndex none)

/-- An index whose root has no subnodes: nothing but the root is held. -/
example {ix : Index} (ho : Obtained (.index ix)) (hn : ∀ v, ¬ HasSubnode ix.rootRanges v) (fuel : Nat) :
    heldBytes (IndexEntries.next ix fuel (IndexEntries.new ix, ⟨exDisk, 0, []⟩)).2.1 ≤
      ix.rootRanges.data.length + 0 * ix.recordSize :=
  (C89_depth_partial ho (by rw [exDisk_length]; decide) (height := fun _ => 0) (depth := 0)
    ⟨fun v h => absurd h (hn v), fun v w ⟨u, hu, _⟩ _ => absurd hu (hn u)⟩
    (.next fuel _ .start (fun _ h => by cases h) rfl)).2

end NT
