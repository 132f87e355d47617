import Verif.Props.C25_IndexOrder

namespace NT

open Spec

/-- The key of every entry of the tree can be parsed, and compares as `ord` says: `.gt` means that what
is searched for comes after the entry, `.lt` that it comes before it. -/
def Keyed {κ : Type} (keyFromSlice : Bytes → Pos → Res κ) (cmp : κ → Res Ordering)
    (ord : Ent → Ordering) (t : Node) : Prop :=
  ∀ e ∈ t.inorder, e.key ≠ [] ∧ ∀ p, ∃ k, keyFromSlice e.key p = .ok k ∧ cmp k = .ok (ord e)

/-- The place of an answer along the order: first the entries that come before what is searched for, then
the equal ones, then those after it. -/
def Spec.rank : Ordering → Nat
  | .gt => 0
  | .eq => 1
  | .lt => 2

/-- The tree is sorted, as far as the comparison can tell. -/
def Sorted (ord : Ent → Ordering) (es : List Ent) : Prop :=
  es.Pairwise fun a b => rank (ord a) ≤ rank (ord b)

/-- The answer of `find`: an equal entry if there is one, otherwise none. -/
def Found (ord : Ent → Ordering) (es : List Ent) (r : Res (Option IEntry)) : Prop :=
  (∃ x e, r = .ok (some x) ∧ x.Is e ∧ e ∈ es ∧ ord e = .eq) ∨
    (r = .ok none ∧ ∀ e ∈ es, ord e ≠ .eq)

theorem Found.mono {ord : Ent → Ordering} {es es' : List Ent} {r : Res (Option IEntry)}
    (h : Found ord es r) (hsub : ∀ e ∈ es, e ∈ es') (hrest : ∀ e ∈ es', e ∉ es → ord e ≠ .eq) :
    Found ord es' r := by
  rcases h with ⟨x, e, h1, h2, h3, h4⟩ | ⟨h1, h2⟩
  · exact .inl ⟨x, e, h1, h2, hsub e h3, h4⟩
  · refine .inr ⟨h1, fun e he => ?_⟩
    by_cases hm : e ∈ es
    · exact h2 e hm
    · exact hrest e he hm

theorem rank_le_gt {a b : Ordering} (h : rank a ≤ rank b) (hb : b = .gt) : a = .gt := by
  subst hb
  cases a <;> first | rfl | (simp [rank] at h)

theorem rank_ge_lt {a b : Ordering} (h : rank a ≤ rank b) (ha : a = .lt) : b = .lt := by
  subst ha
  cases b <;> first | rfl | (simp [rank] at h)

/-- What `find` does for an answer: stop, go on, or look into the subnode. -/
def answer : Ordering → Option Bool
  | .eq => some true
  | .gt => some false
  | .lt => none

/-- The comparison of one entry. -/
theorem Index.judge_encodes {κ : Type} {keyFromSlice : Bytes → Pos → Res κ} {cmp : κ → Res Ordering}
    {o : Ordering} {x : IEntry} {e : Ent} {sub : Option Int} (h : Encodes1 e sub x.slice)
    (hk : e.key ≠ []) (hc : ∀ p, ∃ k, keyFromSlice e.key p = .ok k ∧ cmp k = .ok o) :
    Index.judge keyFromSlice cmp x =
      .ok (answer o) := by
  obtain ⟨k, h1, h2⟩ := hc (Pos.add x.position 16)
  unfold Index.judge
  rw [IEntry.key_encodes keyFromSlice h hk, h1, Res.bind_ok, Res.bind_ok]
  dsimp only
  rw [h2, Res.bind_ok]
  cases o <;> rfl

theorem Index.judge_last {κ : Type} (keyFromSlice : Bytes → Pos → Res κ) (cmp : κ → Res Ordering)
    {x : IEntry} {sub : Option Int} (h : EntryHeader true sub x.slice) :
    Index.judge keyFromSlice cmp x = .ok none := by
  have hr := h.room
  unfold Index.judge IEntry.key IEntry.keyLength
  rw [readLE_ok (n := 2) (a := 10) (by omega), Res.bind_ok]
  split
  · rfl
  · rw [IEntry.isLast_of_header h, Res.bind_ok, if_pos rfl]
    rfl

/-- An equal entry at the front. -/
theorem Index.findLoop_equal {κ : Type} {keyFromSlice : Bytes → Pos → Res κ} {cmp : κ → Res Ordering}
    {ix : Index} {it : NodeRanges} {len : Nat} {e : Ent} {sub : Option Int}
    (hlt : it.start < it.stop) (hin : it.start + len ≤ it.data.length)
    (he : Encodes1 e sub (part it.data it.start len)) (hk : e.key ≠ [])
    (hc : ∀ p, ∃ k, keyFromSlice e.key p = .ok k ∧ cmp k = .ok .eq) (fuel : Nat) (dev : Dev) :
    Index.findLoop keyFromSlice cmp ix (fuel + 1) it dev =
      (.ok (some ⟨part it.data it.start len, it.position⟩), dev) := by
  unfold Index.findLoop
  rw [NodeRanges.next_header hlt hin he.toEntryHeader]
  dsimp only
  rw [if_neg (by decide)]
  dsimp only
  rw [EntryRange.toEntry_header _ hin he.toEntryHeader]
  dsimp only
  rw [Index.judge_encodes (x := ⟨part it.data it.start len, it.position⟩) he hk hc]
  rfl

/-- The loop of `find` on a stored node. -/
theorem Index.findLoop_found {κ : Type} {keyFromSlice : Bytes → Pos → Res κ} {cmp : κ → Res Ordering}
    {ord : Ent → Ordering} {ix : Index} {img : Bytes} {R : Int → Bytes → Nat → Nat → Prop}
    (hix : ix.LoadsBy img R) {d : Bytes} {start stop : Nat} {t : Node} (ht : NodeAt R d start stop t)
    (hk : Keyed keyFromSlice cmp ord t) (hs : Sorted ord t.inorder) (fuel : Nat)
    (hf : t.entries + t.nodes ≤ fuel) (p : Pos) (dev : Dev) (hd : dev.Ok img) :
    ∃ dev', (Index.findLoop keyFromSlice cmp ix fuel ⟨d, start, stop, p⟩ dev).2 = dev' ∧ dev'.Ok img ∧
      Found ord t.inorder (Index.findLoop keyFromSlice cmp ix fuel ⟨d, start, stop, p⟩ dev).1 := by
  induction ht generalizing fuel p dev with
  | stop h =>
    obtain ⟨fuel, rfl⟩ : ∃ f, fuel = f + 1 := ⟨fuel - 1, by simp [Node.entries, Node.nodes] at hf; omega⟩
    unfold Index.findLoop NodeRanges.next
    rw [if_pos (by dsimp only; omega)]
    exact ⟨dev, rfl, hd, .inr ⟨rfl, by simp [Node.inorder]⟩⟩
  | @last d off stop len h hin he =>
    obtain ⟨fuel, rfl⟩ : ∃ f, fuel = f + 1 := ⟨fuel - 1, by simp [Node.entries, Node.nodes] at hf; omega⟩
    unfold Index.findLoop
    rw [NodeRanges.next_header (it := ⟨d, off, stop, p⟩) h hin he]
    dsimp only
    rw [if_pos rfl]
    dsimp only
    rw [EntryRange.toEntry_header p hin he]
    dsimp only
    rw [Index.judge_last _ _ (x := ⟨part d off len, p⟩) he,
      IEntry.subnodeVcn_of_header (e := ⟨part d off len, p⟩) he]
    exact ⟨dev, rfl, hd, .inr ⟨rfl, by simp [Node.inorder]⟩⟩
  | @lastSub d off stop len v d' off' stop' sub h hin he hr hsub ih =>
    obtain ⟨fuel, rfl⟩ : ∃ f, fuel = f + 1 := ⟨fuel - 1, by simp [Node.entries, Node.nodes] at hf; omega⟩
    unfold Index.findLoop
    rw [NodeRanges.next_header (it := ⟨d, off, stop, p⟩) h hin he]
    dsimp only
    rw [if_pos rfl]
    dsimp only
    rw [EntryRange.toEntry_header p hin he]
    dsimp only
    rw [Index.judge_last _ _ (x := ⟨part d off len, p⟩) he,
      IEntry.subnodeVcn_of_header (e := ⟨part d off len, p⟩) he]
    dsimp only
    obtain ⟨q, dev1, e1, hd1⟩ := (hix _ _ _ _ hr).2 dev hd
    rw [e1]
    dsimp only
    exact ih hk hs fuel (by simp only [Node.entries, Node.nodes] at hf; omega) q dev1 hd1
  | @leaf d off stop len e rest h hin he hrest ih =>
    obtain ⟨fuel, rfl⟩ : ∃ f, fuel = f + 1 := ⟨fuel - 1, by simp [Node.entries] at hf; omega⟩
    obtain ⟨hke, hkc⟩ := hk e (by simp [Node.inorder])
    unfold Index.findLoop
    rw [NodeRanges.next_header (it := ⟨d, off, stop, p⟩) h hin he.toEntryHeader]
    dsimp only
    rw [if_neg (by decide)]
    dsimp only
    rw [EntryRange.toEntry_header p hin he.toEntryHeader]
    dsimp only
    rw [Index.judge_encodes (x := ⟨part d off len, p⟩) he hke hkc]
    have hs' : (∀ b ∈ rest.inorder, rank (ord e) ≤ rank (ord b)) ∧ Sorted ord rest.inorder :=
      List.pairwise_cons.1 hs
    cases ho : ord e with
    | eq =>
      simp only [answer]
      exact ⟨dev, rfl, hd, .inl ⟨_, e, rfl, ⟨none, he⟩, by simp [Node.inorder], ho⟩⟩
    | gt =>
      simp only [answer]
      obtain ⟨dev', h1, h2, h3⟩ := ih (fun x hx => hk x (by simp [Node.inorder, hx])) hs'.2 fuel
        (by simp only [Node.entries, Node.nodes] at hf; omega) (Pos.add p len) dev hd
      refine ⟨dev', h1, h2, h3.mono (fun x hx => by simp [Node.inorder, hx]) ?_⟩
      intro x hx hn
      rcases List.mem_cons.1 hx with rfl | hx
      · rw [ho]; decide
      · exact absurd hx hn
    | lt =>
      simp only [answer]
      rw [IEntry.subnodeVcn_of_header (e := ⟨part d off len, p⟩) he.toEntryHeader]
      refine ⟨dev, rfl, hd, .inr ⟨rfl, ?_⟩⟩
      intro x hx
      rcases List.mem_cons.1 hx with rfl | hx
      · rw [ho]; decide
      · rw [rank_ge_lt (hs'.1 x hx) ho]; decide
  | @inner d off stop len v d' off' stop' sub e rest h hin he hr hsub hrest ih1 ih2 =>
    obtain ⟨fuel, rfl⟩ : ∃ f, fuel = f + 1 := ⟨fuel - 1, by simp [Node.entries] at hf; omega⟩
    obtain ⟨hke, hkc⟩ := hk e (by simp [Node.inorder])
    unfold Index.findLoop
    rw [NodeRanges.next_header (it := ⟨d, off, stop, p⟩) h hin he.toEntryHeader]
    dsimp only
    rw [if_neg (by decide)]
    dsimp only
    rw [EntryRange.toEntry_header p hin he.toEntryHeader]
    dsimp only
    rw [Index.judge_encodes (x := ⟨part d off len, p⟩) he hke hkc]
    obtain ⟨hsA, hsB, hsC⟩ := List.pairwise_append.1 (show Sorted ord (sub.inorder ++ e :: rest.inorder)
      from hs)
    obtain ⟨hsD, hsE⟩ := List.pairwise_cons.1 hsB
    cases ho : ord e with
    | eq =>
      simp only [answer]
      exact ⟨dev, rfl, hd, .inl ⟨_, e, rfl, ⟨some v, he⟩, by simp [Node.inorder], ho⟩⟩
    | gt =>
      simp only [answer]
      obtain ⟨dev', h1, h2, h3⟩ := ih2 (fun x hx => hk x (by simp [Node.inorder, hx])) hsE fuel
        (by simp only [Node.entries, Node.nodes] at hf; omega) (Pos.add p len) dev hd
      refine ⟨dev', h1, h2, h3.mono (fun x hx => by simp [Node.inorder, hx]) ?_⟩
      intro x hx hn
      rcases List.mem_append.1 hx with hx | hx
      · rw [rank_le_gt (hsC x hx e (by simp)) ho]; decide
      · rcases List.mem_cons.1 hx with rfl | hx
        · rw [ho]; decide
        · exact absurd hx hn
    | lt =>
      simp only [answer]
      rw [IEntry.subnodeVcn_of_header (e := ⟨part d off len, p⟩) he.toEntryHeader]
      dsimp only
      obtain ⟨q, dev1, e1, hd1⟩ := (hix _ _ _ _ hr).2 dev hd
      rw [e1]
      dsimp only
      obtain ⟨dev', h1, h2, h3⟩ := ih1 (fun x hx => hk x (by simp [Node.inorder, hx])) hsA fuel
        (by simp only [Node.entries, Node.nodes] at hf; omega) q dev1 hd1
      refine ⟨dev', h1, h2, h3.mono (fun x hx => by simp [Node.inorder, hx]) ?_⟩
      intro x hx hn
      rcases List.mem_append.1 hx with hx | hx
      · exact absurd hx hn
      · rcases List.mem_cons.1 hx with rfl | hx
        · rw [ho]; decide
        · rw [rank_ge_lt (hsD x hx) ho]; decide

/-- **C26.** On a stored index whose entries are sorted as far as the comparison can tell, `find`
returns an entry that compares equal if there is one, and none otherwise. -/
theorem C26_find {img : Bytes} {rootItem : AttrItem} {allocItem : Option AttrItem} {t : Node}
    (h : StoredIndex img rootItem allocItem t) {κ : Type} (keyFromSlice : Bytes → Pos → Res κ)
    (cmp : κ → Res Ordering) (ord : Ent → Ordering) (hk : Keyed keyFromSlice cmp ord t)
    (hs : Sorted ord t.inorder) :
    ∃ ix, Index.new rootItem allocItem = .ok ix ∧
      ∀ (fuel : Nat) (d : Dev), t.entries + t.nodes ≤ fuel → d.Ok img →
        ((ix.find keyFromSlice cmp fuel d).2).Ok img ∧
        ((∃ x e, (ix.find keyFromSlice cmp fuel d).1 = .ok (some x) ∧ x.Is e ∧ e ∈ t.inorder ∧
            ord e = .eq) ∨
          ((ix.find keyFromSlice cmp fuel d).1 = .ok none ∧ ∀ e ∈ t.inorder, ord e ≠ .eq)) := by
  obtain ⟨ix, e, ⟨R, h1, h2, h3⟩, _⟩ := h.new
  refine ⟨ix, e, fun fuel d hf hd => ?_⟩
  obtain ⟨d', g1, g2, g3⟩ := Index.findLoop_found h1 h3 hk hs fuel hf ix.rootRanges.position d hd
  exact ⟨by rw [← g1] at g2; exact g2, g3⟩

/-- If only one entry of the tree compares equal, this is the one that `find` returns; in particular it is
the first one. -/
theorem C26_find_unique {img : Bytes} {rootItem : AttrItem} {allocItem : Option AttrItem} {t : Node}
    (h : StoredIndex img rootItem allocItem t) {κ : Type} (keyFromSlice : Bytes → Pos → Res κ)
    (cmp : κ → Res Ordering) (ord : Ent → Ordering) (hk : Keyed keyFromSlice cmp ord t)
    (pre post : List Ent) (e : Ent) (he : t.inorder = pre ++ e :: post)
    (hpre : ∀ x ∈ pre, ord x = .gt) (heq : ord e = .eq) (hpost : ∀ x ∈ post, ord x = .lt) :
    ∃ ix, Index.new rootItem allocItem = .ok ix ∧
      ∀ (fuel : Nat) (d : Dev), t.entries + t.nodes ≤ fuel → d.Ok img →
        ∃ x, (ix.find keyFromSlice cmp fuel d).1 = .ok (some x) ∧ x.Is e := by
  have hs : Sorted ord t.inorder := by
    rw [he]
    refine List.pairwise_append.2 ⟨?_, List.pairwise_cons.2 ⟨?_, ?_⟩, ?_⟩
    · exact List.Pairwise.imp_of_mem (R := fun _ _ => True)
        (fun ha hb _ => by rw [hpre _ ha, hpre _ hb]; exact Nat.le_refl _) (List.pairwise_of_forall fun _ _ => trivial)
    · intro x hx; rw [heq, hpost x hx]; decide
    · exact List.Pairwise.imp_of_mem (R := fun _ _ => True)
        (fun ha hb _ => by rw [hpost _ ha, hpost _ hb]; exact Nat.le_refl _) (List.pairwise_of_forall fun _ _ => trivial)
    · intro a ha b hb
      rw [hpre a ha]
      exact Nat.zero_le _
  obtain ⟨ix, e1, h1⟩ := C26_find h keyFromSlice cmp ord hk hs
  refine ⟨ix, e1, fun fuel d hf hd => ?_⟩
  rcases (h1 fuel d hf hd).2 with ⟨x, e2, g1, g2, g3, g4⟩ | ⟨_, g2⟩
  · rw [he] at g3
    rcases List.mem_append.1 g3 with g3 | g3
    · rw [hpre _ g3] at g4; cases g4
    · rcases List.mem_cons.1 g3 with rfl | g3
      · exact ⟨x, g1, g2⟩
      · rw [hpost _ g3] at g4; cases g4
  · exact absurd heq (g2 e (by rw [he]; simp))

/-! ### The hypotheses can be met; the entry is not always the first one -/

/-- A key type for the examples: the last letter of the key. -/
def exLetter (b : Bytes) (_ : Pos) : Res Nat := .ok (field b 66 1)

/-- Searching for "c" (0x63) among A (0x41), b (0x62), c (0x63), D (0x44), taking the letters as they
are listed. -/
def exOrd (target : Nat) (e : Ent) : Ordering :=
  compare ([0x41, 0x62, 0x63, 0x44].findIdx (· == target)) ([0x41, 0x62, 0x63, 0x44].findIdx (· == field e.key 66 1))

theorem exKeyed (target : Nat) : Keyed exLetter
    (fun k => .ok (compare ([0x41, 0x62, 0x63, 0x44].findIdx (· == target))
      ([0x41, 0x62, 0x63, 0x44].findIdx (· == k)))) (exOrd target) exDirTree := by
  intro e he
  have he : e ∈ [exEntA, exEntB, exEntC, exEntD] := he
  refine ⟨?_, fun p => ⟨_, rfl, rfl⟩⟩
  simp only [List.mem_cons, List.not_mem_nil, or_false] at he
  rcases he with rfl | rfl | rfl | rfl <;> decide

example : Sorted (exOrd 0x63) exDirTree.inorder ∧ exOrd 0x63 exEntC = .eq := by
  refine ⟨?_, by decide⟩
  show Sorted (exOrd 0x63) [exEntA, exEntB, exEntC, exEntD]
  unfold Sorted
  decide

/-- If several entries compare equal, `find` need not return the first one in order: it returns the one
that is closest to the root. Here all entries of the example directory compare equal; "b" is returned
although "A" comes first. -/
theorem C26_not_first (d : Dev) :
    ∃ ix x, Index.new (exDirRootItem none) (some (exDirAllocItem none)) = .ok ix ∧
      exDirTree.inorder.head? = some exEntA ∧
      Sorted (fun _ => .eq) exDirTree.inorder ∧
      Keyed exLetter (fun _ => .ok .eq) (fun _ => .eq) exDirTree ∧
      (ix.find exLetter (fun _ => .ok .eq) 20 d).1 = .ok (some x) ∧ x.Is exEntB ∧ ¬ x.Is exEntA := by
  have hB : Encodes1 exEntB (some 0) (part exDirRoot 0 96) := by
    exact
      { room := by decide +kernel, length := by decide +kernel, flags := by decide +kernel
        vcn := by
          intro v hv
          cases hv
          exact ⟨by decide, by decide, 0, by decide +kernel⟩
        head := by decide +kernel, keyLength := by decide +kernel, fits := by decide +kernel
        key := by decide +kernel }
  refine ⟨exDirIndex none, ⟨part exDirRoot 0 96, Pos.add (some 512) 88⟩, exDirIndex_new none, rfl, ?_, ?_,
    ?_, ⟨_, hB⟩, ?_⟩
  · show Sorted _ [exEntA, exEntB, exEntC, exEntD]
    unfold Sorted
    decide
  · intro e he
    exact ⟨((exKeyed 0) e he).1, fun p => ⟨_, rfl, rfl⟩⟩
  · have := Index.findLoop_equal (keyFromSlice := exLetter) (cmp := fun _ => .ok .eq)
      (ix := exDirIndex none) (it := (exDirIndex none).rootRanges) (len := 96) (show 0 < 120 by decide)
      (show 0 + 96 ≤ exDirRoot.length by decide +kernel) hB (by decide) (fun p => ⟨_, rfl, rfl⟩) 19 d
    exact congrArg Prod.fst this
  · rintro ⟨sub, h⟩
    have := h.head
    revert this
    decide +kernel

/-- Both theorems on the example directory, searching for "c". -/
example := C26_find (exDir_storedIndex none) _ _ _ (exKeyed 0x63)
  (by show Sorted (exOrd 0x63) [exEntA, exEntB, exEntC, exEntD]
      unfold Sorted
      decide)
example := C26_find_unique (exDir_storedIndex none) _ _ _ (exKeyed 0x63) [exEntA, exEntB] [exEntD] exEntC rfl
  (by decide) (by decide) (by decide)

end NT
