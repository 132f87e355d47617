import Verif.Props.C26_IndexFind
import Verif.Props.C31_UpcaseOrder

namespace NT

open Spec

/-- The key of a directory entry is a file name attribute with the name `s` (UTF-16 code units). -/
structure Spec.KeyName (key : Bytes) (s : List Nat) : Prop where
  units : Units s
  room : 68 ≤ key.length
  count : field key 64 1 = s.length
  kind : field key 65 1 < 4
  fits : 66 + 2 * s.length ≤ key.length
  name : part key 66 (2 * s.length) = s.flatMap (leBytes 2)

/-- The entry has a name that is `u` in upper case. -/
def Spec.UpperName (tab : List Nat) (e : Ent) (u : List Nat) : Prop := ∃ s, KeyName e.key s ∧ Upper tab s u

theorem Spec.UpperName.unique {tab : List Nat} {e : Ent} {u v : List Nat} (h : UpperName tab e u)
    (h' : UpperName tab e v) : u = v := by
  obtain ⟨s, h1, h2⟩ := h
  obtain ⟨s', h3, h4⟩ := h'
  have hl : s.length = s'.length := by rw [← h1.count, h3.count]
  have : s = s' := by
    rw [← u16s_flatMap s h1.units, ← h1.name, hl, h3.name, u16s_flatMap s' h3.units]
  subst this
  exact upper_unique h2 h4

theorem FileName.keyFromSlice_keyName {key : Bytes} {s : List Nat} (h : KeyName key s) (p : Pos) :
    ∃ f, FileName.keyFromSlice key p = .ok f ∧ u16s f.name = s := by
  have hc := h.count
  have hf := h.fits
  refine ⟨fileNameAt key, ?_, ?_⟩
  · rw [(C38_resident key p).2.2.2.2, (C38_resident_ok_iff key p).2.2.2.2 h.room (by omega) h.kind]
  · unfold fileNameAt
    dsimp only
    have := h.name
    unfold part at this
    rw [hc]
    rw [this, u16s_flatMap s h.units]

/-- How a name compares with the name of an entry. -/
def nameOrd (ntfs : Ntfs) (name : List Nat) (e : Ent) : Ordering :=
  match upcaseCmp ntfs name (u16s (part e.key 66 (2 * field e.key 64 1))) with
  | .ok o => o
  | _ => .lt

theorem nameOrd_spec {ntfs : Ntfs} {tab name w u : List Nat} {e : Ent} (hn : ntfs.upcaseTable = some tab)
    (hw : Upper tab name w) (hu : UpperName tab e u) :
    (∀ p, ∃ f, FileName.keyFromSlice e.key p = .ok f ∧
      upcaseCmp ntfs name (u16s f.name) = .ok (nameOrd ntfs name e)) ∧
    (nameOrd ntfs name e = .lt ↔ w < u) ∧ (nameOrd ntfs name e = .eq ↔ w = u) ∧
    (nameOrd ntfs name e = .gt ↔ u < w) := by
  obtain ⟨s, hk, hs⟩ := hu
  obtain ⟨h1, h2, h3⟩ := C31_lexicographic ntfs tab hn name s w u hw hs
  have e1 : u16s (part e.key 66 (2 * field e.key 64 1)) = s := by
    rw [hk.count, hk.name, u16s_flatMap s hk.units]
  have e2 : upcaseCmp ntfs name s = .ok (nameOrd ntfs name e) := by
    unfold nameOrd
    rw [e1]
    rcases list_trichotomy w u with h | h | h
    · rw [h1.2 h]
    · rw [h2.2 h]
    · rw [h3.2 h]
  refine ⟨fun p => ?_, ?_⟩
  · obtain ⟨f, g1, g2⟩ := FileName.keyFromSlice_keyName hk p
    exact ⟨f, g1, by rw [g2]; exact e2⟩
  · rw [e2] at h1 h2 h3
    refine ⟨?_, ?_, ?_⟩
    · rw [← h1]; exact ⟨fun h => by rw [h], fun h => by injection h⟩
    · rw [← h2]; exact ⟨fun h => by rw [h], fun h => by injection h⟩
    · rw [← h3]; exact ⟨fun h => by rw [h], fun h => by injection h⟩

/-- All entries of a directory have names, and they are sorted by their names in upper case. -/
structure Spec.DirSorted (tab : List Nat) (es : List Ent) : Prop where
  named : ∀ e ∈ es, ∃ u, UpperName tab e u
  sorted : es.Pairwise fun a b => ∀ u v, UpperName tab a u → UpperName tab b v → ¬ v < u

theorem Spec.DirSorted.search {tab : List Nat} {t : Node} (h : DirSorted tab t.inorder) {ntfs : Ntfs}
    (hn : ntfs.upcaseTable = some tab) {name w : List Nat} (hw : Upper tab name w) :
    Keyed FileName.keyFromSlice (fun f => upcaseCmp ntfs name (u16s f.name)) (nameOrd ntfs name) t ∧
      Sorted (nameOrd ntfs name) t.inorder := by
  constructor
  · intro e he
    obtain ⟨u, hu⟩ := h.named e he
    refine ⟨?_, (nameOrd_spec hn hw hu).1⟩
    obtain ⟨s, hk, _⟩ := hu
    intro hnil
    have := hk.room
    rw [hnil] at this
    simp at this
  · refine List.Pairwise.imp_of_mem ?_ h.sorted
    intro a b ha hb hab
    obtain ⟨u, hu⟩ := h.named a ha
    obtain ⟨v, hv⟩ := h.named b hb
    obtain ⟨_, a1, a2, a3⟩ := nameOrd_spec hn hw hu
    obtain ⟨_, b1, b2, b3⟩ := nameOrd_spec hn hw hv
    have huv := hab u v hu hv
    cases ea : nameOrd ntfs name a with
    | gt => exact Nat.zero_le _
    | eq =>
      cases eb : nameOrd ntfs name b with
      | gt =>
        exfalso
        have h1 := a2.1 ea
        have h2 := b3.1 eb
        rw [← h1] at huv
        exact huv h2
      | eq => exact Nat.le_refl _
      | lt => decide
    | lt =>
      have h1 := a1.1 ea
      cases eb : nameOrd ntfs name b with
      | lt => exact Nat.le_refl _
      | eq => exact absurd (by rw [← b2.1 eb]; exact h1) huv
      | gt => exact absurd (List.lt_trans (b3.1 eb) h1) huv

/-- **C33.** Looking up a name in a stored directory that is sorted by the names in upper case returns
an entry whose name equals the given one up to upper case if there is one, and none otherwise. -/
theorem C33_find {img : Bytes} {rootItem : AttrItem} {allocItem : Option AttrItem} {t : Node}
    (h : StoredIndex img rootItem allocItem t) (ntfs : Ntfs) (tab : List Nat)
    (hn : ntfs.upcaseTable = some tab) (ht : TableOk tab) (hs : DirSorted tab t.inorder) :
    ∃ ix, Index.new rootItem allocItem = .ok ix ∧
      ∀ (name : List Nat) (fuel : Nat) (d : Dev), Units name → t.entries + t.nodes ≤ fuel → d.Ok img →
        ((ix.findName ntfs name fuel d).2).Ok img ∧
        ((∃ x e u, (ix.findName ntfs name fuel d).1 = .ok (some x) ∧ x.Is e ∧ e ∈ t.inorder ∧
            Upper tab name u ∧ UpperName tab e u) ∨
          ((ix.findName ntfs name fuel d).1 = .ok none ∧
            ∀ e ∈ t.inorder, ¬ ∃ u, Upper tab name u ∧ UpperName tab e u)) := by
  obtain ⟨ix, e1, hh, _⟩ := h.new
  refine ⟨ix, e1, fun name fuel d hu hf hd => ?_⟩
  obtain ⟨w, hw⟩ := upper_exists tab name ht hu
  obtain ⟨h1, h2⟩ := hs.search hn hw
  obtain ⟨ix', e2, h3⟩ := C26_find h _ _ _ h1 h2
  have : ix' = ix := by rw [e1] at e2; injection e2 with e2; exact e2.symm
  subst this
  refine ⟨(h3 fuel d hf hd).1, ?_⟩
  rcases (h3 fuel d hf hd).2 with ⟨x, e, g1, g2, g3, g4⟩ | ⟨g1, g2⟩
  · left
    obtain ⟨u, hu⟩ := hs.named e g3
    have := (nameOrd_spec hn hw hu).2.2.1.1 g4
    subst this
    exact ⟨x, e, w, g1, g2, g3, hw, hu⟩
  · right
    refine ⟨g1, fun e he => ?_⟩
    rintro ⟨u, hu1, hu2⟩
    have := upper_unique hw hu1
    subst this
    exact g2 e he ((nameOrd_spec hn hw hu2).2.2.1.2 rfl)

/-- If moreover no two names of the directory are equal up to upper case, it is exactly the entry with
that name. -/
theorem C33_find_unique {img : Bytes} {rootItem : AttrItem} {allocItem : Option AttrItem} {t : Node}
    (h : StoredIndex img rootItem allocItem t) (ntfs : Ntfs) (tab : List Nat)
    (hn : ntfs.upcaseTable = some tab) (ht : TableOk tab) (hs : DirSorted tab t.inorder)
    (huniq : ∀ a ∈ t.inorder, ∀ b ∈ t.inorder, ∀ u, UpperName tab a u → UpperName tab b u → a = b) :
    ∃ ix, Index.new rootItem allocItem = .ok ix ∧
      ∀ (name : List Nat) (fuel : Nat) (d : Dev) (e : Ent) (u : List Nat), Units name →
        t.entries + t.nodes ≤ fuel → d.Ok img → e ∈ t.inorder → Upper tab name u → UpperName tab e u →
        ((ix.findName ntfs name fuel d).2).Ok img ∧
        ∃ x, (ix.findName ntfs name fuel d).1 = .ok (some x) ∧ x.Is e := by
  obtain ⟨ix, e1, h1⟩ := C33_find h ntfs tab hn ht hs
  refine ⟨ix, e1, fun name fuel d e u hu hf hd he hup hen => ?_⟩
  refine ⟨(h1 name fuel d hu hf hd).1, ?_⟩
  rcases (h1 name fuel d hu hf hd).2 with ⟨x, e', u', g1, g2, g3, g4, g5⟩ | ⟨_, g2⟩
  · have := upper_unique hup g4
    subst this
    have := huniq e he e' g3 u hen g5
    subst this
    exact ⟨x, g1, g2⟩
  · exact absurd ⟨u, hup, hen⟩ (g2 e he)

theorem upcaseCmp_upper {ntfs : Ntfs} {tab a b u : List Nat} (hn : ntfs.upcaseTable = some tab)
    (ht : TableOk tab) (ha : Upper tab a u) (hb : Upper tab b u) (c : List Nat) (hc : Units c) :
    upcaseCmp ntfs a c = upcaseCmp ntfs b c := by
  obtain ⟨w, hw⟩ := upper_exists tab c ht hc
  obtain ⟨a1, a2, a3⟩ := C31_lexicographic ntfs tab hn a c u w ha hw
  obtain ⟨b1, b2, b3⟩ := C31_lexicographic ntfs tab hn b c u w hb hw
  rcases list_trichotomy u w with h | h | h
  · rw [a1.2 h, b1.2 h]
  · rw [a2.2 h, b2.2 h]
  · rw [a3.2 h, b3.2 h]

/-- **C33**, the case of the letters does not matter: on every index, whatever its contents, two names
that are equal in upper case give the same result. -/
theorem C33_case_blind (ix : Index) (ntfs : Ntfs) (tab a b u : List Nat)
    (hn : ntfs.upcaseTable = some tab) (ht : TableOk tab) (ha : Upper tab a u) (hb : Upper tab b u) :
    ix.findName ntfs a = ix.findName ntfs b := by
  have : (fun f : FileName => upcaseCmp ntfs a (u16s f.name)) =
      fun f => upcaseCmp ntfs b (u16s f.name) := by
    funext f
    exact upcaseCmp_upper hn ht ha hb _ (u16s_lt f.name)
  unfold Index.findName
  funext fuel
  rw [this]

/-! ### The hypotheses can be met -/

theorem exKeyName {e : Ent} {x : Nat} (hx : x < 128) (hl : e.key.length = 68) (h64 : field e.key 64 1 = 1)
    (h65 : field e.key 65 1 = 1) (hn : part e.key 66 2 = [UInt8.ofNat x, 0]) :
    UpperName exTable e [if 97 ≤ x ∧ x ≤ 122 then x - 32 else x] := by
  refine ⟨[x], ⟨?_, by omega, h64, by omega, by simp [hl], ?_⟩, .cons (exTable_get x (by omega)) .nil⟩
  · intro c hc
    simp at hc
    omega
  · show part e.key 66 2 = _
    rw [hn]
    have e1 : x % 256 = x := by omega
    have e2 : x / 256 = 0 := by omega
    simp [leBytes, e1, e2]

theorem exDir_upper : UpperName exTable exEntA [0x41] ∧ UpperName exTable exEntB [0x42] ∧
    UpperName exTable exEntC [0x43] ∧ UpperName exTable exEntD [0x44] :=
  ⟨exKeyName (x := 0x41) (by decide) (by decide) (by decide) (by decide) (by decide),
   exKeyName (x := 0x62) (by decide) (by decide) (by decide) (by decide) (by decide),
   exKeyName (x := 0x63) (by decide) (by decide) (by decide) (by decide) (by decide),
   exKeyName (x := 0x44) (by decide) (by decide) (by decide) (by decide) (by decide)⟩

/-- The example directory A, b, c, D is sorted; taken by the plain code units it is not. -/
theorem exDir_sorted : DirSorted exTable exDirTree.inorder := by
  have hin : exDirTree.inorder = [exEntA, exEntB, exEntC, exEntD] := rfl
  obtain ⟨hA, hB, hC, hD⟩ := exDir_upper
  rw [hin]
  constructor
  · intro e he
    simp only [List.mem_cons, List.not_mem_nil, or_false] at he
    rcases he with rfl | rfl | rfl | rfl
    · exact ⟨_, hA⟩
    · exact ⟨_, hB⟩
    · exact ⟨_, hC⟩
    · exact ⟨_, hD⟩
  · simp only [List.pairwise_cons, List.mem_cons, List.not_mem_nil, or_false, forall_eq_or_imp, forall_eq,
      List.Pairwise.nil, and_true, false_imp_iff, implies_true]
    refine ⟨⟨?_, ?_, ?_⟩, ⟨?_, ?_⟩, ?_⟩ <;> intro u v hu hv
    · rw [hu.unique hA, hv.unique hB]; decide
    · rw [hu.unique hA, hv.unique hC]; decide
    · rw [hu.unique hA, hv.unique hD]; decide
    · rw [hu.unique hB, hv.unique hC]; decide
    · rw [hu.unique hB, hv.unique hD]; decide
    · rw [hu.unique hC, hv.unique hD]; decide

/-- Looking up "C" and "d" in the example directory finds "c" and "D". -/
example : ∃ ix, Index.new (exDirRootItem (some exTable)) (some (exDirAllocItem (some exTable))) = .ok ix ∧
    ∀ d : Dev, d.Ok exDirImage →
      (∃ x, (ix.findName (exDirNtfs (some exTable)) [0x43] 20 d).1 = .ok (some x) ∧ x.Is exEntC) ∧
      (∃ x, (ix.findName (exDirNtfs (some exTable)) [0x64] 20 d).1 = .ok (some x) ∧ x.Is exEntD) := by
  obtain ⟨hA, hB, hC, hD⟩ := exDir_upper
  obtain ⟨ix, e, h⟩ := C33_find_unique (exDir_storedIndex (some exTable)) (exDirNtfs (some exTable)) exTable rfl
    exTable_ok exDir_sorted (by
      have hin : exDirTree.inorder = [exEntA, exEntB, exEntC, exEntD] := rfl
      rw [hin]
      intro a ha b hb u hu hv
      simp only [List.mem_cons, List.not_mem_nil, or_false] at ha hb
      rcases ha with rfl | rfl | rfl | rfl <;> rcases hb with rfl | rfl | rfl | rfl <;>
        first
          | rfl
          | (exfalso
             have h1 : ∃ w, w = u := ⟨u, rfl⟩
             first
               | (rw [hu.unique hA] at hv)
               | (rw [hu.unique hB] at hv)
               | (rw [hu.unique hC] at hv)
               | (rw [hu.unique hD] at hv)
             first
               | (have := hv.unique hA; revert this; decide)
               | (have := hv.unique hB; revert this; decide)
               | (have := hv.unique hC; revert this; decide)
               | (have := hv.unique hD; revert this; decide)))
  refine ⟨ix, e, fun d hd => ⟨?_, ?_⟩⟩
  · exact (h [0x43] 20 d exEntC [0x43] (by intro c hc; simp at hc; subst hc; decide) (by decide) hd (by decide)
      (.cons (exTable_get 0x43 (by decide)) .nil) hC).2
  · exact (h [0x64] 20 d exEntD [0x44] (by intro c hc; simp at hc; subst hc; decide) (by decide) hd (by decide)
      (.cons (exTable_get 0x64 (by decide)) .nil) hD).2

/-- `C33_find` on the same directory, and `C33_case_blind` for "b" and "B". -/
example := C33_find (exDir_storedIndex (some exTable)) (exDirNtfs (some exTable)) exTable rfl exTable_ok exDir_sorted
example (ix : Index) : ix.findName (exDirNtfs (some exTable)) [0x62] = ix.findName (exDirNtfs (some exTable)) [0x42] :=
  C33_case_blind ix _ _ _ _ [0x42] rfl exTable_ok (.cons (exTable_get 0x62 (by decide)) .nil) (.cons (exTable_get 0x42 (by decide)) .nil)

end NT
