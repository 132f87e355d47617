import Verif.Lemmas.IndexEntry
import Verif.Lemmas.Val

namespace NT

open Spec

/-- The subnodes of an index are the records that `R` describes. -/
def Index.LoadsBy (ix : Index) (img : Bytes) (R : Int → Bytes → Nat → Nat → Prop) : Prop :=
  ∀ v d off stop, R v d off stop → stop ≤ d.length ∧ ∀ dev : Dev, dev.Ok img →
    ∃ p dev', ix.subnode v dev = (.ok ⟨d, off, stop, p⟩, dev') ∧ dev'.Ok img

/-- The rounds of the loop that traversing a tree takes: one for each entry and one for the end of
each node. -/
def Spec.Node.rounds (t : Node) : Nat := t.entries + t.nodes

/-- The entry `x` shown by the code is the entry `e` of the tree. -/
def IEntry.Is (x : IEntry) (e : Ent) : Prop := ∃ sub, Encodes1 e sub x.slice

/-- The entry saved for later. -/
def Saved (below : List NodeRanges) : Option EntryRange → List Ent → Prop
  | none, es => es = []
  | some r, es => ∃ e x top rest, es = [e] ∧ below = top :: rest ∧ r.toEntry top.data = .ok x ∧ x.Is e

/-- What the two stacks of the iterator stand for: the entries still to come, and a bound on the
rounds that are left. -/
inductive Stack (R : Int → Bytes → Nat → Nat → Prop) :
    List NodeRanges → List (Option EntryRange) → List Ent → Nat → Prop
  | done : Stack R [] [] [] 0
  | root {top : NodeRanges} {t : Node} (hs : top.stop ≤ top.data.length)
      (h : NodeAt R top.data top.start top.stop t) : Stack R [top] [] t.inorder t.rounds
  | push {top : NodeRanges} {t : Node} {below : List NodeRanges} {f : Option EntryRange}
      {fs : List (Option EntryRange)} {es saved : List Ent} {n : Nat}
      (hs : top.stop ≤ top.data.length) (h : NodeAt R top.data top.start top.stop t)
      (hf : Saved below f saved) (hb : Stack R below fs es n) :
      Stack R (top :: below) (f :: fs) (t.inorder ++ (saved ++ es)) (t.rounds + n)

/-- Putting back the node on top: everything but the node on top stays. -/
theorem Stack.replace {R : Int → Bytes → Nat → Nat → Prop} {top : NodeRanges}
    {below : List NodeRanges} {fs : List (Option EntryRange)} {es : List Ent} {n : Nat}
    (h : Stack R (top :: below) fs es n) :
    ∃ t rest m, NodeAt R top.data top.start top.stop t ∧ top.stop ≤ top.data.length ∧
      es = t.inorder ++ rest ∧ n = t.rounds + m ∧
      ∀ t' top', NodeAt R top'.data top'.start top'.stop t' → top'.stop ≤ top'.data.length →
        Stack R (top' :: below) fs (t'.inorder ++ rest) (t'.rounds + m) := by
  cases h with
  | root hs h =>
    refine ⟨_, [], 0, h, hs, by simp, rfl, ?_⟩
    intro t' top' h' hs'
    rw [List.append_nil]
    exact .root hs' h'
  | push hs h hf hb =>
    exact ⟨_, _, _, h, hs, rfl, rfl, fun t' top' h' hs' => .push hs' h' hf hb⟩

theorem Saved.replace {top top' : NodeRanges} (hd : top'.data = top.data) {below : List NodeRanges}
    {f : Option EntryRange} {es : List Ent} (h : Saved (top :: below) f es) :
    Saved (top' :: below) f es := by
  cases f with
  | none => exact h
  | some r =>
    obtain ⟨e, x, t, rest, h1, h2, h3, h4⟩ := h
    obtain ⟨rfl, rfl⟩ := List.cons.inj h2
    exact ⟨e, x, top', _, h1, rfl, by rw [hd]; exact h3, h4⟩

/-- One call of the loop: with enough fuel it finds the next entry of the order, or the end. -/
theorem IndexEntries.loop_stack {ix : Index} {img : Bytes} {R : Int → Bytes → Nat → Nat → Prop}
    (hix : ix.LoadsBy img R) (fuel : Nat) (it : IndexEntries) (dev : Dev) (es : List Ent) (n : Nat)
    (h : Stack R it.inner it.following es n) (hd : dev.Ok img) (hn : n < fuel) :
    ∃ it' dev' n', dev'.Ok img ∧ n' ≤ n ∧ Stack R it'.inner it'.following es.tail n' ∧
      match es with
      | [] => IndexEntries.loop ix fuel (it, dev) = (.ok none, (it', dev')) ∧ it'.inner = []
      | e :: _ => ∃ r x, IndexEntries.loop ix fuel (it, dev) = (.ok (some r), (it', dev')) ∧
          IndexEntries.entryOf r it' = .ok x ∧ x.Is e := by
  induction fuel generalizing it dev es n with
  | zero => omega
  | succ fuel ih =>
    obtain ⟨inner, following⟩ := it
    dsimp only at h
    unfold IndexEntries.loop
    dsimp only
    match inner, h with
    | [], h =>
      cases h
      exact ⟨⟨[], []⟩, dev, 0, hd, Nat.le_refl _, .done, rfl, rfl⟩
    | top :: below, h =>
      obtain ⟨t, rest, m, ht, hs, he, hm, hput⟩ := Stack.replace h
      dsimp only
      cases ht with
      | stop hle =>
        have en : top.next = (.ok none, top) := by
          unfold NodeRanges.next; rw [if_pos (by omega)]
        rw [en]
        dsimp only
        cases h with
        | @root _ t2 hs2 ht2 =>
          have ht2' : t2 = .stop := by cases ht2 <;> first | rfl | omega
          subst ht2'
          exact ⟨⟨[], []⟩, dev, 0, hd, Nat.zero_le _, .done, rfl, rfl⟩
        | @push _ t2 _ f fs es2 saved n2 hs2 ht2 hf hb =>
          have ht2' : t2 = .stop := by cases ht2 <;> first | rfl | omega
          subst ht2'
          simp only [Node.inorder, List.nil_append, Node.rounds, Node.entries, Node.nodes] at *
          cases f with
          | none =>
            have : saved = [] := hf
            subst this
            dsimp only
            rw [List.nil_append]
            obtain ⟨it', dev', n', h1, h2, h3, h4⟩ := ih ⟨below, fs⟩ dev es2 n2 hb hd (by omega)
            exact ⟨it', dev', n', h1, by omega, h3, h4⟩
          | some r =>
            obtain ⟨e, x, t2, rest2, rfl, rfl, hx, hxe⟩ := hf
            exact ⟨⟨t2 :: rest2, fs⟩, dev, n2, hd, by omega, hb, r, x, rfl, hx, hxe⟩
      | last hlt hin hh =>
        rw [NodeRanges.next_header hlt hin hh]
        dsimp only
        rw [if_pos rfl]
        dsimp only
        rw [IndexEntries.inspect_header _ hin hh]
        dsimp only
        rw [if_pos rfl]
        have := hput .stop { top with start := top.data.length } (.stop hs) hs
        obtain ⟨it', dev', n', h1, h2, h3, h4⟩ := ih ⟨_, following⟩ dev es (1 + m)
          (by rw [he]; exact this) hd
          (by simp only [Node.rounds, Node.entries, Node.nodes] at hm; omega)
        refine ⟨it', dev', n', h1, ?_, h3, h4⟩
        simp only [Node.rounds, Node.entries, Node.nodes] at hm; omega
      | lastSub hlt hin hh hr hsub =>
        rename_i len v d' off' stop' sub
        rw [NodeRanges.next_header hlt hin hh]
        dsimp only
        rw [if_pos rfl]
        dsimp only
        rw [IndexEntries.inspect_header _ hin hh]
        dsimp only
        obtain ⟨hs', hload⟩ := hix _ _ _ _ hr
        obtain ⟨p, dev1, e1, hd1⟩ := hload dev hd
        rw [e1]
        dsimp only
        rw [if_pos rfl]
        have hb := hput .stop { top with start := top.data.length } (.stop hs) hs
        have := Stack.push (top := ⟨d', off', stop', p⟩) (f := none) (saved := []) hs' hsub rfl hb
        obtain ⟨it', dev', n', h1, h2, h3, h4⟩ := ih ⟨_, none :: following⟩ dev1 es
          (sub.rounds + (1 + m)) (by rw [he]; exact this) hd1
          (by simp only [Node.rounds, Node.entries, Node.nodes] at hm ⊢; omega)
        refine ⟨it', dev', n', h1, ?_, h3, h4⟩
        simp only [Node.rounds, Node.entries, Node.nodes] at hm h2; omega
      | leaf hlt hin hh ht' =>
        rename_i len e rest'
        rw [NodeRanges.next_header hlt hin hh.toEntryHeader]
        dsimp only
        rw [if_neg (by decide)]
        dsimp only
        rw [IndexEntries.inspect_header _ hin hh.toEntryHeader]
        dsimp only
        rw [if_neg (by decide)]
        have := hput rest' { top with start := top.start + len, position := Pos.add top.position len }
          ht' hs
        subst he
        refine ⟨_, dev, _, hd, ?_, this, _, ⟨part top.data top.start len, top.position⟩, rfl, ?_,
          none, hh⟩
        · simp only [Node.rounds, Node.entries, Node.nodes] at hm ⊢; omega
        · exact EntryRange.toEntry_header _ hin hh.toEntryHeader
      | inner hlt hin hh hr hsub ht' =>
        rename_i len v d' off' stop' sub e rest'
        rw [NodeRanges.next_header hlt hin hh.toEntryHeader]
        dsimp only
        rw [if_neg (by decide)]
        dsimp only
        rw [IndexEntries.inspect_header _ hin hh.toEntryHeader]
        dsimp only
        obtain ⟨hs', hload⟩ := hix _ _ _ _ hr
        obtain ⟨p, dev1, e1, hd1⟩ := hload dev hd
        rw [e1]
        dsimp only
        rw [if_neg (by decide)]
        have hb := hput rest' { top with start := top.start + len, position := Pos.add top.position len }
          ht' hs
        have := Stack.push (top := ⟨d', off', stop', p⟩)
          (f := some ⟨top.start, top.start + len, top.position⟩) (saved := [e]) hs' hsub
          (below := { top with start := top.start + len, position := Pos.add top.position len } :: below)
          ⟨e, ⟨part top.data top.start len, top.position⟩, _, _, rfl, rfl,
            EntryRange.toEntry_header _ hin hh.toEntryHeader, _, hh⟩ hb
        obtain ⟨it', dev', n', h1, h2, h3, h4⟩ := ih ⟨_, some ⟨top.start, top.start + len,
          top.position⟩ :: following⟩ dev1 es (sub.rounds + (rest'.rounds + m))
          (by rw [he]; simpa [Node.inorder] using this) hd1
          (by simp only [Node.rounds, Node.entries, Node.nodes] at hm ⊢; omega)
        refine ⟨it', dev', n', h1, ?_, h3, h4⟩
        simp only [Node.rounds, Node.entries, Node.nodes] at hm h2; omega

/-- The results of the first `k` calls of `next`, and the state afterwards. -/
def IndexEntries.calls (ix : Index) (fuel : Nat) : Nat → IndexEntries × Dev → List (Res (Option IEntry))
  | 0, _ => []
  | k + 1, s =>
    let (r, s') := IndexEntries.next ix fuel s
    r :: IndexEntries.calls ix fuel k s'

/-- The result of one call: an entry, or the end. -/
def Shown : Option Ent → Res (Option IEntry) → Prop
  | some e, r => ∃ x, r = .ok (some x) ∧ x.Is e
  | none, r => r = .ok none

/-- The results `rs` are the entries `es`, and then the end again and again. -/
def ShowsThenEnds (es : List Ent) (rs : List (Res (Option IEntry))) : Prop :=
  ∀ (i : Nat) r, rs[i]? = some r → Shown es[i]? r

theorem IndexEntries.calls_stack {ix : Index} {img : Bytes} {R : Int → Bytes → Nat → Nat → Prop}
    (hix : ix.LoadsBy img R) (fuel : Nat) (k : Nat) (it : IndexEntries) (dev : Dev) (es : List Ent)
    (n : Nat) (h : Stack R it.inner it.following es n) (hd : dev.Ok img) (hn : n < fuel) :
    ShowsThenEnds es (IndexEntries.calls ix fuel k (it, dev)) := by
  induction k generalizing it dev es n with
  | zero => intro i r hi; simp [IndexEntries.calls] at hi
  | succ k ih =>
    obtain ⟨it', dev', n', h1, h2, h3, h4⟩ := IndexEntries.loop_stack hix fuel it dev es n h hd hn
    have htail := ih it' dev' es.tail n' h3 h1 (by omega)
    have hnext : ∃ r0, IndexEntries.next ix fuel (it, dev) = (r0, (it', dev')) ∧
        Shown es[0]? r0 := by
      cases es with
      | nil =>
        obtain ⟨e1, _⟩ := h4
        refine ⟨.ok none, ?_, rfl⟩
        unfold IndexEntries.next
        rw [e1]
      | cons e es =>
        obtain ⟨r, x, e1, e2, e3⟩ := h4
        refine ⟨.ok (some x), ?_, x, rfl, e3⟩
        unfold IndexEntries.next
        rw [e1]
        dsimp only
        rw [e2]
    obtain ⟨r0, e0, hr0⟩ := hnext
    intro i r hi
    unfold IndexEntries.calls at hi
    rw [e0] at hi
    dsimp only at hi
    cases i with
    | zero =>
      rw [List.getElem?_cons_zero] at hi
      obtain rfl := Option.some.inj hi
      exact hr0
    | succ i =>
      rw [List.getElem?_cons_succ] at hi
      have := htail i r hi
      rw [List.getElem?_tail] at this
      exact this

end NT
