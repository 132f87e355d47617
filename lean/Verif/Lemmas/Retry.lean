import Verif.Lemmas.Prog
import Verif.Lemmas.Flaky
import Verif.Lemmas.IndexTree

/-! What an operation leaves behind on a device that may fail: the same bytes, and a part of the failures that
were still to come. -/

namespace NT

open Spec

/-- `d'` is the device `d` after some calls. -/
structure Dev.Later (d d' : Dev) : Prop where
  img : d'.img = d.img
  sched : d'.sched <:+ d.sched

theorem Dev.Later.refl (d : Dev) : d.Later d := ⟨rfl, List.suffix_refl _⟩

theorem Dev.Later.trans {a b c : Dev} (h : a.Later b) (k : b.Later c) : a.Later c :=
  ⟨k.img.trans h.img, k.sched.trans h.sched⟩

theorem Dev.Later.calm {d d' : Dev} (h : d.Later d') (hd : d.Calm) : d'.Calm :=
  fun r hr => hd r (h.sched.subset hr)

theorem Dev.Later.fails {d d' : Dev} (h : d.Later d') {e : IoErr} (he : .fail e ∈ d'.sched) : .fail e ∈ d.sched :=
  h.sched.subset he

theorem Dev.seekStart_later (p : Nat) (d : Dev) : d.Later (Dev.seekStart p d).2 := by
  obtain ⟨img, pos, sched⟩ := d
  unfold Dev.seekStart
  dsimp only
  rcases sched with _ | ⟨_ | _, s⟩
  · exact ⟨rfl, List.suffix_refl _⟩
  · exact ⟨rfl, List.suffix_cons _ _⟩
  · exact ⟨rfl, List.suffix_cons _ _⟩

theorem Dev.read_later (n : Nat) (d : Dev) : d.Later (Dev.read n d).2 := by
  obtain ⟨img, pos, sched⟩ := d
  unfold Dev.read
  dsimp only
  rcases sched with _ | ⟨_ | _, s⟩
  · exact ⟨rfl, List.suffix_refl _⟩
  · exact ⟨rfl, List.suffix_cons _ _⟩
  · exact ⟨rfl, List.suffix_cons _ _⟩

theorem Dev.readExactAux_later (fuel n : Nat) (acc : Bytes) (d : Dev) :
    d.Later (Dev.readExactAux fuel n acc d).2 := by
  induction fuel generalizing n acc d with
  | zero => exact .refl d
  | succ fuel ih =>
    unfold Dev.readExactAux
    split
    · exact .refl d
    · have h := Dev.read_later n d
      generalize Dev.read n d = q at h
      obtain ⟨r, d'⟩ := q
      dsimp only at h
      split
      · next hq =>
        injection hq with _ hq
        subst hq
        split
        · exact h
        · exact h.trans (ih _ _ _)
      · next hq =>
        injection hq with _ hq
        subst hq
        exact h.trans (ih _ _ _)
      all_goals
        next hq =>
        injection hq with _ hq
        subst hq
        exact h

theorem Dev.ask_later (e : Bool) (p n : Nat) (d : Dev) : d.Later (Dev.ask e p n d).2 := by
  have h1 := Dev.seekStart_later p d
  unfold Dev.ask
  rw [StM.bind_apply]
  generalize Dev.seekStart p d = q at h1
  obtain ⟨r, d1⟩ := q
  cases r with
  | ok a =>
    dsimp only at h1 ⊢
    refine h1.trans ?_
    cases e with
    | true => exact Dev.readExactAux_later _ _ _ _
    | false => exact Dev.read_later _ _
  | err e => exact h1
  | panic e => exact h1
  | diverge => exact h1

theorem Prog.run_later {β : Type} (t : Prog β) (d : Dev) : d.Later (t.run Dev.ask d).2 := by
  induction t generalizing d with
  | done b => exact .refl d
  | ask e p n k ih => exact (Dev.ask_later e p n d).trans (ih _ _)

theorem RepD.later {α : Type} {p : StM Dev α} (hp : RepD p) {d : Dev} (hd : d.Calm) : d.Later (p d).2 := by
  obtain ⟨t, ht⟩ := hp.asks
  rw [ht d hd]
  exact t.run_later d

theorem RepS.later {σ α : Type} {p : StM (σ × Dev) α} (hp : RepS p) (s : σ) {d : Dev} (hd : d.Calm) :
    d.Later (p (s, d)).2.2 := by
  obtain ⟨t, ht⟩ := (hp s).asks
  show d.Later ((fun d => p (s, d)) d).2.2
  rw [ht d hd]
  exact t.run_later d

theorem Dev.heal_ok (k : Nat) (d : Dev) : (d.heal k).Ok d.img := by
  refine ⟨rfl, fun r hr e he => ?_⟩
  obtain ⟨x, _, rfl⟩ := List.mem_map.1 hr
  cases x <;> cases he

/-- The result on a failing device: that of the device without failures, or a failure of the device. -/
theorem Faithful.result {α : Type} {p : StM Dev α} (hp : ∀ {F : IoErr → Prop} {k : Nat}, ¬ F .interrupted → Faithful F k p)
    {d : Dev} (hd : d.Calm) :
    (p d).1 = (p (d.heal 0)).1 ∨ ∃ e, .fail e ∈ d.sched ∧ (p d).1 = .err (.io e) := by
  rcases hp (F := fun e => .fail e ∈ d.sched) (k := 0) (fun h => hd _ h rfl) d (fun _ h => h) with ⟨_, h⟩ | ⟨e, h1, h2⟩
  · left
    have h' : p (d.heal 0) = ((p d).1, (p d).2.heal 0) := h
    rw [h']
  · exact .inr ⟨e, h1, h2⟩

/-! ### The index iterator on a failing device -/

/-- For each subnode of the tree: everything in it, and the entry that refers to it. -/
def Spec.Node.branches : Node → List (List Ent)
  | .stop => []
  | .last => []
  | .lastSub sub => sub.inorder :: sub.branches
  | .leaf _ rest => rest.branches
  | .inner sub e rest => (sub.inorder ++ [e]) :: (sub.branches ++ rest.branches)

/-- `Stack`, and all subnodes still to come are among `B`. -/
inductive BStack (R : Int → Bytes → Nat → Nat → Prop) (B : List (List Ent)) :
    List NodeRanges → List (Option EntryRange) → List Ent → Nat → Prop
  | done : BStack R B [] [] [] 0
  | root {top : NodeRanges} {t : Node} (hs : top.stop ≤ top.data.length)
      (h : NodeAt R top.data top.start top.stop t) (hq : t.branches ⊆ B) : BStack R B [top] [] t.inorder t.rounds
  | push {top : NodeRanges} {t : Node} {below : List NodeRanges} {f : Option EntryRange}
      {fs : List (Option EntryRange)} {es saved : List Ent} {n : Nat}
      (hs : top.stop ≤ top.data.length) (h : NodeAt R top.data top.start top.stop t) (hq : t.branches ⊆ B)
      (hf : Saved below f saved) (hb : BStack R B below fs es n) :
      BStack R B (top :: below) (f :: fs) (t.inorder ++ (saved ++ es)) (t.rounds + n)

theorem BStack.replace {R : Int → Bytes → Nat → Nat → Prop} {B : List (List Ent)} {top : NodeRanges}
    {below : List NodeRanges} {fs : List (Option EntryRange)} {es : List Ent} {n : Nat}
    (h : BStack R B (top :: below) fs es n) :
    ∃ t rest m, NodeAt R top.data top.start top.stop t ∧ t.branches ⊆ B ∧ top.stop ≤ top.data.length ∧
      es = t.inorder ++ rest ∧ n = t.rounds + m ∧
      ∀ t' top', NodeAt R top'.data top'.start top'.stop t' → t'.branches ⊆ B → top'.stop ≤ top'.data.length →
        BStack R B (top' :: below) fs (t'.inorder ++ rest) (t'.rounds + m) := by
  cases h with
  | root hs h hq =>
    refine ⟨_, [], 0, h, hq, hs, by simp, rfl, ?_⟩
    intro t' top' h' hq' hs'
    rw [List.append_nil]
    exact .root hs' h' hq'
  | push hs h hq hf hb =>
    exact ⟨_, _, _, h, hq, hs, rfl, rfl, fun t' top' h' hq' hs' => .push hs' h' hq' hf hb⟩

/-- `IndexEntries.loop_stack` on a device that may fail. -/
theorem IndexEntries.loop_gaps {ix : Index} {img : Bytes} {R : Int → Bytes → Nat → Nat → Prop}
    {B : List (List Ent)} (hix : ix.LoadsBy img R) (fuel : Nat) (it : IndexEntries) (dev : Dev) (es : List Ent) (n : Nat)
    (h : BStack R B it.inner it.following es n) (hi : dev.img = img) (hc : dev.Calm) (hn : n < fuel) :
    ∃ it' dev' n', dev.Later dev' ∧ n' ≤ n ∧
      ((BStack R B it'.inner it'.following es.tail n' ∧
        match es with
        | [] => IndexEntries.loop ix fuel (it, dev) = (.ok none, (it', dev')) ∧ it'.inner = []
        | e :: _ => ∃ r x, IndexEntries.loop ix fuel (it, dev) = (.ok (some r), (it', dev')) ∧
            IndexEntries.entryOf r it' = .ok x ∧ x.Is e) ∨
      ∃ e gone left, .fail e ∈ dev.sched ∧ IndexEntries.loop ix fuel (it, dev) = (.err (.io e), (it', dev')) ∧
        es = gone ++ left ∧ gone ∈ B ∧ BStack R B it'.inner it'.following left n') := by
  induction fuel generalizing it dev es n with
  | zero => omega
  | succ fuel ih =>
    obtain ⟨inner, following⟩ := it
    dsimp only at h
    unfold IndexEntries.loop
    dsimp only
    match inner, h with
    | [], h =>
      cases h
      exact ⟨⟨[], []⟩, dev, 0, .refl _, Nat.le_refl _, .inl ⟨.done, rfl, rfl⟩⟩
    | top :: below, h =>
      obtain ⟨t, rest, m, ht, hq, hs, he, hm, hput⟩ := BStack.replace h
      dsimp only
      cases ht with
      | stop hle =>
        have en : top.next = (.ok none, top) := by
          unfold NodeRanges.next; rw [if_pos (by omega)]
        rw [en]
        dsimp only
        cases h with
        | @root _ t2 hs2 ht2 hq2 =>
          have ht2' : t2 = .stop := by cases ht2 <;> first | rfl | omega
          subst ht2'
          exact ⟨⟨[], []⟩, dev, 0, .refl _, Nat.zero_le _, .inl ⟨.done, rfl, rfl⟩⟩
        | @push _ t2 _ f fs es2 saved n2 hs2 ht2 hq2 hf hb =>
          have ht2' : t2 = .stop := by cases ht2 <;> first | rfl | omega
          subst ht2'
          simp only [Node.inorder, List.nil_append, Node.rounds, Node.entries, Node.nodes] at *
          cases f with
          | none =>
            have : saved = [] := hf
            subst this
            dsimp only
            rw [List.nil_append]
            obtain ⟨it', dev', n', h1, h2, h3⟩ := ih ⟨below, fs⟩ dev es2 n2 hb hi hc (by omega)
            exact ⟨it', dev', n', h1, by omega, h3⟩
          | some r =>
            obtain ⟨e, x, t2, rest2, rfl, rfl, hx, hxe⟩ := hf
            exact ⟨⟨t2 :: rest2, fs⟩, dev, n2, .refl _, by omega, .inl ⟨hb, r, x, rfl, hx, hxe⟩⟩
      | last hlt hin hh =>
        rw [NodeRanges.next_header hlt hin hh]
        dsimp only
        rw [if_pos rfl]
        dsimp only
        rw [IndexEntries.inspect_header _ hin hh]
        dsimp only
        rw [if_pos rfl]
        have := hput .stop { top with start := top.data.length } (.stop hs) (List.nil_subset _) hs
        obtain ⟨it', dev', n', h1, h2, h3⟩ := ih ⟨_, following⟩ dev es (1 + m)
          (by rw [he]; exact this) hi hc
          (by simp only [Node.rounds, Node.entries, Node.nodes] at hm; omega)
        refine ⟨it', dev', n', h1, ?_, h3⟩
        simp only [Node.rounds, Node.entries, Node.nodes] at hm; omega
      | lastSub hlt hin hh hr hsub =>
        rename_i len v d' off' stop' sub
        have hsubq : (Node.lastSub sub).branches ⊆ B → sub.branches ⊆ B := fun h x hx => h (List.mem_cons_of_mem _ hx)
        rw [NodeRanges.next_header hlt hin hh]
        dsimp only
        rw [if_pos rfl]
        dsimp only
        rw [IndexEntries.inspect_header _ hin hh]
        dsimp only
        obtain ⟨hs', hload⟩ := hix _ _ _ _ hr
        obtain ⟨p, dev1, e1, hd1⟩ := hload (dev.heal 0) (hi ▸ dev.heal_ok 0)
        have hlater := (Index.subnode_rep ix v).later hc
        have hb := hput .stop { top with start := top.data.length } (.stop hs) (List.nil_subset _) hs
        have hres := Faithful.result (fun h => Index.subnode_faithful h ix v) hc
        rw [e1] at hres
        generalize ix.subnode v dev = q at hlater hres
        obtain ⟨q, dev1⟩ := q
        dsimp only at hlater hres
        rcases hres with rfl | ⟨e, he1, rfl⟩
        · dsimp only
          rw [if_pos rfl]
          have := BStack.push (top := ⟨d', off', stop', p⟩) (f := none) (saved := []) hs' hsub (hsubq hq) rfl hb
          obtain ⟨it', dev', n', h1, h2, h3⟩ := ih ⟨_, none :: following⟩ dev1 es
            (sub.rounds + (1 + m)) (by rw [he]; exact this) (hlater.img.trans hi) (hlater.calm hc)
            (by simp only [Node.rounds, Node.entries, Node.nodes] at hm ⊢; omega)
          refine ⟨it', dev', n', hlater.trans h1, ?_, ?_⟩
          · simp only [Node.rounds, Node.entries, Node.nodes] at hm h2; omega
          · rcases h3 with h3 | ⟨e, gone, left, g1, g2⟩
            · exact .inl h3
            · exact .inr ⟨e, gone, left, hlater.fails g1, g2⟩
        · refine ⟨_, dev1, _, hlater, ?_, .inr ⟨e, sub.inorder, rest, he1, rfl, he, ?_, hb⟩⟩
          · simp only [Node.rounds, Node.entries, Node.nodes] at hm ⊢; omega
          · exact hq List.mem_cons_self
      | leaf hlt hin hh ht' =>
        rename_i len e rest'
        have hrest : (Node.leaf e rest').branches ⊆ B → rest'.branches ⊆ B := fun h => h
        rw [NodeRanges.next_header hlt hin hh.toEntryHeader]
        dsimp only
        rw [if_neg (by decide)]
        dsimp only
        rw [IndexEntries.inspect_header _ hin hh.toEntryHeader]
        dsimp only
        rw [if_neg (by decide)]
        have := hput rest' { top with start := top.start + len, position := Pos.add top.position len }
          ht' (hrest hq) hs
        subst he
        refine ⟨_, dev, _, .refl _, ?_, .inl ⟨this, _, ⟨part top.data top.start len, top.position⟩, rfl, ?_,
          none, hh⟩⟩
        · simp only [Node.rounds, Node.entries, Node.nodes] at hm ⊢; omega
        · exact EntryRange.toEntry_header _ hin hh.toEntryHeader
      | inner hlt hin hh hr hsub ht' =>
        rename_i len v d' off' stop' sub e rest'
        have hsubq : (Node.inner sub e rest').branches ⊆ B → sub.branches ⊆ B :=
          fun h x hx => h (List.mem_cons_of_mem _ (List.mem_append_left _ hx))
        have hrest : (Node.inner sub e rest').branches ⊆ B → rest'.branches ⊆ B :=
          fun h x hx => h (List.mem_cons_of_mem _ (List.mem_append_right _ hx))
        rw [NodeRanges.next_header hlt hin hh.toEntryHeader]
        dsimp only
        rw [if_neg (by decide)]
        dsimp only
        rw [IndexEntries.inspect_header _ hin hh.toEntryHeader]
        dsimp only
        obtain ⟨hs', hload⟩ := hix _ _ _ _ hr
        obtain ⟨p, dev1, e1, hd1⟩ := hload (dev.heal 0) (hi ▸ dev.heal_ok 0)
        have hlater := (Index.subnode_rep ix v).later hc
        have hb := hput rest' { top with start := top.start + len, position := Pos.add top.position len }
          ht' (hrest hq) hs
        have hres := Faithful.result (fun h => Index.subnode_faithful h ix v) hc
        rw [e1] at hres
        generalize ix.subnode v dev = q at hlater hres
        obtain ⟨q, dev1⟩ := q
        dsimp only at hlater hres
        rcases hres with rfl | ⟨x, he1, rfl⟩
        · dsimp only
          rw [if_neg (by decide)]
          have := BStack.push (top := ⟨d', off', stop', p⟩)
            (f := some ⟨top.start, top.start + len, top.position⟩) (saved := [e]) hs' hsub (hsubq hq)
            (below := { top with start := top.start + len, position := Pos.add top.position len } :: below)
            ⟨e, ⟨part top.data top.start len, top.position⟩, _, _, rfl, rfl,
              EntryRange.toEntry_header _ hin hh.toEntryHeader, _, hh⟩ hb
          obtain ⟨it', dev', n', h1, h2, h3⟩ := ih ⟨_, some ⟨top.start, top.start + len,
            top.position⟩ :: following⟩ dev1 es (sub.rounds + (rest'.rounds + m))
            (by rw [he]; simpa [Node.inorder] using this) (hlater.img.trans hi) (hlater.calm hc)
            (by simp only [Node.rounds, Node.entries, Node.nodes] at hm ⊢; omega)
          refine ⟨it', dev', n', hlater.trans h1, ?_, ?_⟩
          · simp only [Node.rounds, Node.entries, Node.nodes] at hm h2; omega
          · rcases h3 with h3 | ⟨e, gone, left, g1, g2⟩
            · exact .inl h3
            · exact .inr ⟨e, gone, left, hlater.fails g1, g2⟩
        · refine ⟨_, dev1, _, hlater, ?_, .inr ⟨x, sub.inorder ++ [e], rest'.inorder ++ rest, he1, rfl, ?_, ?_, hb⟩⟩
          · simp only [Node.rounds, Node.entries, Node.nodes] at hm ⊢; omega
          · rw [he]; simp [Node.inorder]
          · exact hq List.mem_cons_self

end NT
