import Mathlib.Data.Finset.Card
import Mathlib.Data.Int.Interval
import Mathlib.Logic.Relation
import Verif.Lemmas.IndexAcyclic
import Verif.Lemmas.Retry
import Verif.Props.C27_IndexTermination
import Verif.Props.C65_Splitting
import Verif.Props.C70_Returns

/-! C27: the two searches through an index end if no node is below itself. -/

namespace NT

namespace Spec

/-- The index record `v`, as it is read from the image, has a subnode `w`. -/
def Leads (ix : Index) (img : Bytes) (v w : Int) : Prop :=
  ∃ d sub d', d.Ok img ∧ ix.subnode v d = (.ok sub, d') ∧ HasSubnode sub w

/-- A traversal that starts at the root can meet the record `v`. -/
def Met (ix : Index) (img : Bytes) (v : Int) : Prop :=
  ∃ u, HasSubnode ix.rootRanges u ∧ Relation.ReflTransGen (Leads ix img) u v

/-- No record that can be met is below itself. -/
def Acyclic (ix : Index) (img : Bytes) : Prop := ∀ v, Met ix img v → ¬ Relation.TransGen (Leads ix img) v v

/-- The calls of a traversal: `n` entries come back, and calls that fail in between do not count. The calls may meet
different devices with the bytes of the image; they may fail, but do not interrupt. -/
inductive Listed (ix : Index) (img : Bytes) (fuel : Nat) : Nat → IndexEntries → Prop
  | start : Listed ix img fuel 0 (IndexEntries.new ix)
  | one {n it e} (d : Dev) : Listed ix img fuel n it → d.Calm → d.img = img →
      (IndexEntries.next ix fuel (it, d)).1 = .ok (some e) →
      Listed ix img fuel (n + 1) (IndexEntries.next ix fuel (it, d)).2.1
  | other {n it} (d : Dev) : Listed ix img fuel n it → d.Calm → d.img = img →
      Listed ix img fuel n (IndexEntries.next ix fuel (it, d)).2.1

end Spec

open Spec

/-! ### The rank of a record -/

theorem Spec.Points.range {d : Bytes} {stop off : Nat} {v : Int} (h : Points d stop off v) :
    -(I63 : Int) ≤ v ∧ v < (I63 : Int) := by
  induction h with
  | here _ _ he =>
    obtain ⟨h1, h2, _⟩ := he.vcn _ rfl
    exact ⟨h1, h2⟩
  | later _ _ _ _ _ ih => exact ih

theorem ints_finite (a b : Int) : ∃ s : Finset Int, ∀ v, a ≤ v → v < b → v ∈ s :=
  ⟨Finset.Ico a b, fun _ h1 h2 => Finset.mem_Ico.2 ⟨h1, h2⟩⟩

open Classical in
/-- The number of records below a record, among those in `s`. -/
noncomputable def Index.below (ix : Index) (img : Bytes) (s : Finset Int) (v : Int) : Nat :=
  (s.filter fun w => Relation.TransGen (Leads ix img) v w).card

theorem Index.below_lt {ix : Index} {img : Bytes} {s : Finset Int}
    (hs : ∀ v, -(I63 : Int) ≤ v → v < (I63 : Int) → v ∈ s) (ha : Acyclic ix img) {v w : Int} (hv : Met ix img v)
    (h : Leads ix img v w) : Met ix img w ∧ ix.below img s w < ix.below img s v := by
  have hw : Met ix img w := by
    obtain ⟨u, h1, h2⟩ := hv
    exact ⟨u, h1, h2.tail h⟩
  classical
  refine ⟨hw, Finset.card_lt_card ?_⟩
  rw [Finset.ssubset_iff_of_subset]
  · refine ⟨w, ?_, ?_⟩
    · have h' := h
      obtain ⟨_, sub, _, _, _, hw⟩ := h'
      obtain ⟨r1, r2⟩ := Points.range hw
      exact Finset.mem_filter.2 ⟨hs w r1 r2, .single h⟩
    · exact fun hx => ha w hw (Finset.mem_filter.1 hx).2
  · intro x hx
    have hx := Finset.mem_filter.1 hx
    exact Finset.mem_filter.2 ⟨hx.1, .head h hx.2⟩

/-! ### Going down on devices that may fail -/

theorem Index.subnode_stop {ix : Index} {v : Int} {d d' : Dev} {sub : NodeRanges}
    (h : ix.subnode v d = (.ok sub, d')) : sub.stop ≤ sub.data.length ∧ sub.stop < 24 + U32 := by
  obtain ⟨_, _, _, h⟩ := StM.bind_ok h
  obtain ⟨_, _, _, h⟩ := StM.bind_ok h
  obtain ⟨_, _, _, h⟩ := StM.bind_ok h
  obtain ⟨r, _, _, h⟩ := StM.bind_ok h
  have h : r.intoEntryRanges = .ok sub := congrArg Prod.fst h
  obtain ⟨⟨s, e, p⟩, h1, h2⟩ := Res.bind_eq_ok.1 h
  refine ⟨NodeRanges.new_stop h2, ?_⟩
  obtain ⟨o, _, h1⟩ := Res.bind_eq_ok.1 h1
  obtain ⟨u, hu, h1⟩ := Res.bind_eq_ok.1 h1
  have hlt := readLE_lt hu
  have he : 24 + u = e := congrArg (fun x => x.2.1) (Res.ok.inj h1)
  have h3 : NodeRanges.new r.record.data s e p = .ok sub := h2
  unfold NodeRanges.new at h3
  split at h3
  · cases h3
    show e < _
    omega
  · cases h3

theorem Index.descends {ix : Index} {img : Bytes} {s : Finset Int}
    (hf : ∀ v, -(I63 : Int) ≤ v → v < (I63 : Int) → v ∈ s) (hs : ix.Sane) (hi : img.length < U64)
    (ha : Acyclic ix img) :
    Descends ix (fun d => d.Calm ∧ d.img = img) (Met ix img) (ix.below img s) (24 + U32) where
  size := by omega
  back := fun v d => Index.subnode_comes hs v d
  down := by
    intro v d sub d' hv ⟨hc, hd⟩ e
    obtain ⟨r, hr⟩ := (Index.subnode_rep ix v).one img hi
    have hfi : d.FailsIn (· ≠ .interrupted) := fun x hx => by
      rintro rfl
      exact hc _ hx rfl
    obtain ⟨g1, g2⟩ := Index.subnode_stop e
    rcases Index.subnode_faithful (F := (· ≠ .interrupted)) (k := 0) (fun h => h rfl) ix v d hfi with ⟨f1, f2⟩ | ⟨x, _, f2⟩
    · rw [e] at f1 f2
      have hok : (d.heal 0).Ok img := by rw [← hd]; exact Dev.heal_ok 0 d
      rw [OnDevice.heal_dev, OnDevice.heal_dev] at f2
      have h3 := hr _ hok.1 hok.2
      rw [f2] at h3
      refine ⟨⟨fun x hx => ?_, h3.2.1⟩, g1, ?_, fun w hw => Index.below_lt hf ha hv ⟨_, sub, _, hok, f2, hw⟩⟩
      · rintro rfl
        exact f1 _ hx rfl
      · unfold NodeRanges.rest
        omega
    · rw [e] at f2
      cases f2

theorem Index.frames {ix : Index} {img : Bytes} (s : Finset Int) (hs : ix.Sane) :
    ∃ m, Frames (Met ix img) (ix.below img s) (24 + U32) [ix.rootRanges] m := by
  classical
  have hk : ∃ k, ∀ v, ix.below img s v < k :=
    ⟨s.card + 1, fun v => Nat.lt_succ_of_le (Finset.card_filter_le s _)⟩
  obtain ⟨k, hk⟩ := hk
  exact ⟨_, .cons hs.2 (fun v hv => ⟨⟨v, hv, .refl⟩, hk v⟩) .nil⟩

/-! ### The theorems -/

theorem C27_entries_acyclic_sane {ix : Index} (hs : ix.Sane) {img : Bytes} (hi : img.length < U64)
    (ha : Acyclic ix img) :
    ∃ N, ∀ fuel, N ≤ fuel → ∀ n it, Listed ix img fuel n it → n < N ∧
      ∀ d, d.Calm → d.img = img → (IndexEntries.next ix fuel (it, d)).1 ≠ .diverge := by
  obtain ⟨s, hf⟩ := ints_finite (-(I63 : Int)) (I63 : Int)
  obtain ⟨m, hm⟩ := Index.frames (ix := ix) (img := img) s hs
  have H := Index.descends hf hs hi ha
  refine ⟨m + 1, fun fuel hf n it hl => ?_⟩
  have key : ∃ m', Frames (Met ix img) (ix.below img s) (24 + U32) it.inner m' ∧ n + m' ≤ m := by
    induction hl with
    | start => exact ⟨m, hm, by omega⟩
    | @one n it e d _ h1 h2 h3 ih =>
      obtain ⟨m1, f1, f2⟩ := ih
      obtain ⟨_, m2, g1, _, g3⟩ := IndexEntries.next_ends H fuel m1 it d f1 ⟨h1, h2⟩ (by omega)
      have := g3 e h3
      exact ⟨m2, g1, by omega⟩
    | @other n it d _ h1 h2 ih =>
      obtain ⟨m1, f1, f2⟩ := ih
      obtain ⟨_, m2, g1, g2, _⟩ := IndexEntries.next_ends H fuel m1 it d f1 ⟨h1, h2⟩ (by omega)
      exact ⟨m2, g1, by omega⟩
  obtain ⟨m', h1, h2⟩ := key
  exact ⟨by omega, fun d hc hd => (IndexEntries.next_ends H fuel m' it d h1 ⟨hc, hd⟩ (by omega)).1⟩

theorem C27_find_acyclic_sane {ix : Index} (hs : ix.Sane) {img : Bytes} (hi : img.length < U64)
    (ha : Acyclic ix img) :
    ∃ N, ∀ fuel, N ≤ fuel → ∀ d, d.Calm → d.img = img →
      (∀ ntfs name, (ix.findName ntfs name fuel d).1 ≠ .diverge) ∧
      ∀ (κ : Type) (keyFromSlice : Bytes → Pos → Res κ) (cmp : κ → Res Ordering),
        (∀ b p, keyFromSlice b p ≠ .diverge) → (∀ k, cmp k ≠ .diverge) →
        (ix.find keyFromSlice cmp fuel d).1 ≠ .diverge := by
  obtain ⟨s, hf⟩ := ints_finite (-(I63 : Int)) (I63 : Int)
  obtain ⟨m, hm⟩ := Index.frames (ix := ix) (img := img) s hs
  have H := Index.descends hf hs hi ha
  refine ⟨m + 1, fun fuel hf d hc hd => ?_⟩
  have key : ∀ (κ : Type) (keyFromSlice : Bytes → Pos → Res κ) (cmp : κ → Res Ordering),
      (∀ b p, keyFromSlice b p ≠ .diverge) → (∀ k, cmp k ≠ .diverge) →
      (ix.find keyFromSlice cmp fuel d).1 ≠ .diverge := fun κ kf cmp h1 h2 =>
    Index.findLoop_returns (key := kf) (cmp := cmp) h1 h2 H fuel m ix.rootRanges d hm ⟨hc, hd⟩ (by omega)
  exact ⟨fun ntfs name => key _ _ _ FileName.keyFromSlice_returns fun f => upcaseCmp_returns _ _ _, key⟩

/-- **C27, partial.** On every index in which no record is below itself, however damaged the image is otherwise, every
call of `entries().next()` ends, and the traversal ends: the number of rounds of a call and the number of entries that
all calls together give have a bound.

Full claim: the calls end on every image. It is false, see `C27_negation`. -/
theorem C27_entries_acyclic_partial {ix : Index} (h : Obtained (.index ix)) {img : Bytes} (hi : img.length < U64)
    (ha : Acyclic ix img) :
    ∃ N, ∀ fuel, N ≤ fuel → ∀ n it, Listed ix img fuel n it → n < N ∧
      ∀ d, d.Calm → d.img = img → (IndexEntries.next ix fuel (it, d)).1 ≠ .diverge :=
  C27_entries_acyclic_sane h.sane hi ha

/-- **C27, partial.** On every index in which no record is below itself, every search ends: by name, and by any other
key and comparison that end themselves. -/
theorem C27_find_acyclic_partial {ix : Index} (h : Obtained (.index ix)) {img : Bytes} (hi : img.length < U64)
    (ha : Acyclic ix img) :
    ∃ N, ∀ fuel, N ≤ fuel → ∀ d, d.Calm → d.img = img →
      (∀ ntfs name, (ix.findName ntfs name fuel d).1 ≠ .diverge) ∧
      ∀ (κ : Type) (keyFromSlice : Bytes → Pos → Res κ) (cmp : κ → Res Ordering),
        (∀ b p, keyFromSlice b p ≠ .diverge) → (∀ k, cmp k ≠ .diverge) →
        (ix.find keyFromSlice cmp fuel d).1 ≠ .diverge :=
  C27_find_acyclic_sane h.sane hi ha

theorem C27_only_cycles_sane {ix : Index} (h : ix.Sane) (d : Dev) (hi : d.img.length < U64) (hc : d.Calm)
    (hang : (∀ fuel, (IndexEntries.next ix fuel (IndexEntries.new ix, d)).1 = .diverge) ∨
      ∃ ntfs name, ∀ fuel, (ix.findName ntfs name fuel d).1 = .diverge) :
    ∃ v, Met ix d.img v ∧ Relation.TransGen (Leads ix d.img) v v := by
  apply Classical.byContradiction
  intro hn
  have ha : Acyclic ix d.img := fun v hv ht => hn ⟨v, hv, ht⟩
  rcases hang with hang | ⟨ntfs, name, hang⟩
  · obtain ⟨N, hN⟩ := C27_entries_acyclic_sane h hi ha
    exact (hN N (Nat.le_refl _) 0 _ .start).2 d hc rfl (hang N)
  · obtain ⟨N, hN⟩ := C27_find_acyclic_sane h hi ha
    exact (hN N (Nat.le_refl _) d hc rfl).1 ntfs name (hang N)

/-- **C27**: only a cycle makes a search by name or the first step of a traversal go on forever. -/
theorem C27_only_cycles {ix : Index} (h : Obtained (.index ix)) (d : Dev) (hi : d.img.length < U64) (hc : d.Calm)
    (hang : (∀ fuel, (IndexEntries.next ix fuel (IndexEntries.new ix, d)).1 = .diverge) ∨
      ∃ ntfs name, ∀ fuel, (ix.findName ntfs name fuel d).1 = .diverge) :
    ∃ v, Met ix d.img v ∧ Relation.TransGen (Leads ix d.img) v v :=
  C27_only_cycles_sane h.sane d hi hc hang

/-! ### Trees are acyclic -/

theorem IntAt.unique {b : Bytes} {off : Nat} {v w : Int} (hv : IntAt b off v) (hw : IntAt b off w) : v = w := by
  obtain ⟨h1, h2, k, h3⟩ := hv
  obtain ⟨g1, g2, j, g3⟩ := hw
  omega

theorem Spec.part_field {d : Bytes} {off len i n : Nat} (h : i + n ≤ len) :
    field (part d off len) i n = field d (off + i) n := by
  unfold field part
  rw [List.drop_take, List.take_take, List.drop_drop, Nat.min_eq_left (by omega)]

theorem EntryHeader.facts {last : Bool} {sub : Option Int} {d : Bytes} {off len : Nat} (hin : off + len ≤ d.length)
    (he : EntryHeader last sub (part d off len)) :
    16 + vcnSize sub ≤ len ∧ field d (off + 8) 2 = len ∧
      field d (off + 12) 1 % 4 = (if sub.isSome then 1 else 0) + (if last then 2 else 0) := by
  have h1 := he.room
  have h2 := he.length
  have h3 := he.flags
  rw [part_length hin] at h1 h2
  rw [part_field (by omega)] at h2 h3
  exact ⟨h1, h2, h3⟩

/-- The subnodes of a node of a tree are roots of smaller trees. -/
theorem Spec.NodeAt.points {R : Int → Bytes → Nat → Nat → Prop} {d : Bytes} {off stop : Nat} {t : Node}
    (ht : NodeAt R d off stop t) {v : Int} (hv : Points d stop off v) :
    ∃ d' off' stop' sub, R v d' off' stop' ∧ NodeAt R d' off' stop' sub ∧ sub.entries < t.entries := by
  induction ht with
  | stop h =>
    cases hv <;> omega
  | last h hin he =>
    obtain ⟨e1, e2, e3⟩ := EntryHeader.facts hin he
    cases hv with
    | @here _ len _ _ h' hin' he' =>
      obtain ⟨f1, f2, f3⟩ := EntryHeader.facts hin' he'
      rw [e3] at f3
      exact absurd f3 (by revert f3; cases ‹Bool› <;> simp)
    | later h' hin' hlen hn hv =>
      simp at e3
      omega
  | @lastSub d off stop len w d' off' stop' sub h hin he hr hs ih =>
    obtain ⟨e1, e2, e3⟩ := EntryHeader.facts hin he
    cases hv with
    | @here _ len' _ _ h' hin' he' =>
      obtain ⟨f1, f2, f3⟩ := EntryHeader.facts hin' he'
      have hl : len' = len := f2.symm.trans e2
      subst hl
      have := IntAt.unique (he.vcn _ rfl) (he'.vcn _ rfl)
      subst this
      exact ⟨_, _, _, _, hr, hs, by simp only [Node.entries]; omega⟩
    | later h' hin' hlen hn hv =>
      simp at e3
      omega
  | @leaf d off stop len e rest h hin he ht ih =>
    obtain ⟨e1, e2, e3⟩ := EntryHeader.facts hin he.toEntryHeader
    cases hv with
    | @here _ len _ _ h' hin' he' =>
      obtain ⟨f1, f2, f3⟩ := EntryHeader.facts hin' he'
      rw [e3] at f3
      exact absurd f3 (by revert f3; cases ‹Bool› <;> simp)
    | later h' hin' hlen hn hv =>
      rw [e2] at hv
      obtain ⟨d', off', stop', sub, g1, g2, g3⟩ := ih hv
      exact ⟨_, _, _, _, g1, g2, by simp only [Node.entries]; omega⟩
  | @inner d off stop len w d' off' stop' sub e rest h hin he hr hs ht ih1 ih2 =>
    obtain ⟨e1, e2, e3⟩ := EntryHeader.facts hin he.toEntryHeader
    cases hv with
    | @here _ len' _ _ h' hin' he' =>
      obtain ⟨f1, f2, f3⟩ := EntryHeader.facts hin' he'
      have hl : len' = len := f2.symm.trans e2
      subst hl
      have := IntAt.unique (he.vcn _ rfl) (he'.vcn _ rfl)
      subst this
      exact ⟨_, _, _, _, hr, hs, by simp only [Node.entries]; omega⟩
    | later h' hin' hlen hn hv =>
      rw [e2] at hv
      obtain ⟨d', off', stop', sub, g1, g2, g3⟩ := ih2 hv
      exact ⟨_, _, _, _, g1, g2, by simp only [Node.entries]; omega⟩

/-- **C27**: an index that is stored as a tree is acyclic. -/
theorem C27_tree_acyclic {img : Bytes} {rootItem : AttrItem} {allocItem : Option AttrItem} {t : Node}
    (h : StoredIndex img rootItem allocItem t) : ∃ ix, Index.new rootItem allocItem = .ok ix ∧ Acyclic ix img := by
  obtain ⟨ix, e, ⟨R, h1, h2, h3⟩, _⟩ := h.new
  refine ⟨ix, e, ?_⟩
  let T (n : Nat) (v : Int) : Prop :=
    ∃ d off stop sub, R v d off stop ∧ NodeAt R d off stop sub ∧ sub.entries = n
  have step : ∀ {n v w}, T n v → Leads ix img v w → ∃ m, m < n ∧ T m w := by
    rintro n v w ⟨d, off, stop, sub, hR, hN, rfl⟩ ⟨dev, s, dev', hd, es, hs⟩
    obtain ⟨p, dev1, e1, _⟩ := (h1 _ _ _ _ hR).2 dev hd
    rw [es] at e1
    cases (Prod.mk.inj e1).1
    obtain ⟨d', off', stop', sub', g1, g2, g3⟩ := hN.points hs
    exact ⟨_, g3, _, _, _, _, g1, g2, rfl⟩
  have steps : ∀ {n v w}, T n v → Relation.TransGen (Leads ix img) v w → ∃ m, m < n ∧ T m w := by
    intro n v w hT hw
    induction hw with
    | single h => exact step hT h
    | tail _ h ih =>
      obtain ⟨m, h1, h2⟩ := ih
      obtain ⟨m', h3, h4⟩ := step h2 h
      exact ⟨m', by omega, h4⟩
  intro v ⟨u, hu, huv⟩ hc
  obtain ⟨d, off, stop, sub, g1, g2, _⟩ := h3.points hu
  have hT : ∃ n, T n v := by
    rcases Relation.reflTransGen_iff_eq_or_transGen.1 huv with rfl | huv
    · exact ⟨_, _, _, _, _, g1, g2, rfl⟩
    · obtain ⟨m, _, hm⟩ := steps (n := sub.entries) ⟨_, _, _, _, g1, g2, rfl⟩ huv
      exact ⟨m, hm⟩
  obtain ⟨n, hn⟩ := hT
  induction n using Nat.strongRecOn with
  | ind n ih =>
    obtain ⟨m, h1, h2⟩ := steps hn hc
    exact ih m h1 h2

/-! ### Examples -/

/-- The example directory with two index records is acyclic. -/
example : ∃ ix, Index.new (exDirRootItem none) (some (exDirAllocItem none)) = .ok ix ∧ Acyclic ix exDirImage :=
  C27_tree_acyclic (exDir_storedIndex none)

/-- The root directory of the example volume can be got hold of and is acyclic, so its iterations and searches end. -/
theorem exRoot_acyclic : ∃ ix, Obtained (.index ix) ∧ exDisk.length < U64 ∧ Acyclic ix exDisk := by
  have hd : Dev.Ok exDisk ⟨exDisk, 0, []⟩ := ⟨rfl, fun _ h => by cases h⟩
  obtain ⟨d', e, hd'⟩ := exDisk_start _ hd
  obtain ⟨n, d1, e1, e⟩ := StM.bind_ok e
  obtain ⟨n', d2, e2, e⟩ := StM.bind_ok e
  obtain ⟨f, d3, e3, e⟩ := StM.bind_ok e
  have hs := Res.ok.inj (Prod.mk.inj e).1
  have hf : f = exRoot.base := List.head_eq_of_cons_eq (congrArg Shell.stack hs)
  subst hf
  obtain ⟨r, hfl⟩ := exRoot_dir.flat
  obtain ⟨ri, ai, ix, d4, e4, _, hst, hix⟩ :=
    C48_open hfl exRoot_dir.room exRoot_dir.flag exRoot_dir.stored 3 (by decide) _ hd
  obtain ⟨ix', e5, h5⟩ := C27_tree_acyclic hst
  rw [hix] at e5
  cases e5
  exact ⟨ix, .directory (.file (.upcase (.volume e1) e2) e3) e4, by rw [exDisk_length]; decide, h5⟩

/-- The record that is its own subnode is below itself. -/
theorem exLoop_cycle : Met exLoopIndex exLoopImage 0 ∧ Relation.TransGen (Leads exLoopIndex exLoopImage) 0 0 := by
  have hd : Dev.Ok exLoopImage ⟨exLoopImage, 0, []⟩ := ⟨rfl, fun _ h => by cases h⟩
  obtain ⟨len, v, l1, l2, l3, rfl⟩ := exLoop_leads
  obtain ⟨p, dev, e, _⟩ := (exLoop_allocated.loadsBy _ _ _ _ exLoop_record).2 _ hd
  refine ⟨⟨0, ?_, .refl⟩, .single ⟨_, _, _, hd, e, .here l1 l2 l3⟩⟩
  exact .here (len := 24) (last := true) (by decide) (by decide)
    { room := by decide, length := by decide, flags := by decide
      vcn := by
        intro v hv
        cases hv
        exact ⟨by decide, by decide, 0, by decide⟩ }

/-- So the theorems apply to it. -/
example : ∃ ix, Obtained (.index ix) ∧ ∃ N, ∀ fuel, N ≤ fuel → ∀ n it, Listed ix exDisk fuel n it → n < N :=
  let ⟨ix, h1, h2, h3⟩ := exRoot_acyclic
  let ⟨N, h⟩ := C27_entries_acyclic_partial h1 h2 h3
  ⟨ix, h1, N, fun fuel hf n it hl => (h fuel hf n it hl).1⟩

example : ∃ ix, Obtained (.index ix) ∧ ∃ N, ∀ fuel, N ≤ fuel → ∀ ntfs name,
    (ix.findName ntfs name fuel ⟨exDisk, 0, []⟩).1 ≠ .diverge :=
  let ⟨ix, h1, h2, h3⟩ := exRoot_acyclic
  let ⟨N, h⟩ := C27_find_acyclic_partial h1 h2 h3
  ⟨ix, h1, N, fun fuel hf => (h fuel hf ⟨exDisk, 0, []⟩ (fun _ h => by cases h) rfl).1⟩

/-- The traversal of the looping index goes on forever, so it has a cycle. -/
example : ∃ v, Met exLoopIndex exLoopImage v ∧ Relation.TransGen (Leads exLoopIndex exLoopImage) v v :=
  C27_only_cycles_sane ⟨fun i hi => by cases hi; exact fun l hl => (by cases hl), by decide⟩ ⟨exLoopImage, 0, []⟩
    (by decide +kernel) (fun _ h => by cases h)
    (.inl fun fuel => (C27_negation _ ⟨rfl, fun _ h => by cases h⟩ fuel).1)

end NT
