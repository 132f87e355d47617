import Verif.Props.C24_ListEntries

/-! C73: an attribute list reads the same whether it is stored in the record or in clusters. This holds
for all contents, sound or not, in which no entry claims more bytes than are left. An entry that does
is returned by the one form and ends the other without an error. -/

namespace NT

open Spec

namespace Spec

/-- What a call of the iterator over a list shows. -/
inductive Shown
  | entry (e : LEntry)
  | done
  | cut                          -- the list ends inside of an entry
  | small (stored needed : Nat)  -- the entry is too small for its own header and name
  | other
  deriving DecidableEq, Repr

/-- The entry at the beginning of `b`. -/
def entryOf (b : Bytes) : LEntry :=
  { ty := field b 0 4, vcn := toI64 (field b 8 8), ref := field b 16 8, inst := field b 24 2
    name := u16s ((b.drop 26).take (2 * field b 6 1)) }

/-- What `k` calls show if the rest of the list is `b`. `keep` tells whether an entry that claims more
bytes than are left is shown. -/
def listCalls (keep : Bool) : Nat → Bytes → List Shown
  | 0, _ => []
  | k + 1, b =>
    if b = [] then .done :: listCalls keep k b
    else if b.length < 26 then .cut :: listCalls keep k b
    else if field b 4 2 < 26 + 2 * field b 6 1 then
      .small (field b 4 2) (26 + 2 * field b 6 1) :: listCalls keep k b
    else if b.length < 26 + 2 * field b 6 1 then .cut :: listCalls keep k b
    else if field b 4 2 ≤ b.length then .entry (entryOf b) :: listCalls keep k (b.drop (field b 4 2))
    else if keep then .entry (entryOf b) :: listCalls keep k []
    else .done :: listCalls keep k b

/-- No entry claims more bytes than are left: reading stops before, or never meets such an entry. -/
inductive NoOverrun : Bytes → Prop
  | stop (b : Bytes) : b.length < 26 ∨ field b 4 2 < 26 + 2 * field b 6 1 ∨
      b.length < 26 + 2 * field b 6 1 → NoOverrun b
  | next (b : Bytes) : field b 4 2 ≤ b.length → NoOverrun (b.drop (field b 4 2)) → NoOverrun b

end Spec

/-- What the result of a call shows. -/
def showCall : Res (Option ListEntry) → Spec.Shown
  | .ok (some e) => .entry e.view
  | .ok none => .done
  | .err (.io .unexpectedEof) => .cut
  | .err (.invalidStructuredValueSize _ .attributeList x y) => .small x y
  | _ => .other

theorem view_entryAt (b : Bytes) (pos : Pos) : (entryAt b pos).view = entryOf b := by
  unfold ListEntry.view entryAt entryOf
  dsimp only
  rw [Nat.mul_comm 2]
  rfl

/-- An entry of a list in clusters, also if it claims more bytes than are left. -/
theorem AttrList.next_overrun (img : Bytes) (v : NonRes) (b : Bytes)
    (hh : (AttrList.nonResident v).Holds img b) (d : Dev) (hd : d.NoFail) (hi : d.img = img)
    (hbn : b ≠ []) (e : ListEntry) (hx : entryRes b v.dataPosition = .ok e)
    (hlim : v.st.dataSize + U16 ≤ U64) :
    ∃ v' d', AttrList.next (.nonResident v, d) = (.ok (some e), (.nonResident v', d')) ∧
      (AttrList.nonResident v').Holds img (b.drop e.length) ∧ d'.NoFail ∧ d'.img = img ∧
      v'.st.dataSize = v.st.dataSize := by
  obtain ⟨himg, all, hg, hsz, hb⟩ := hh
  have hbl : b.length = v.st.dataSize - v.st.streamPosition := by
    rw [← hb, List.length_drop, List.length_take]; omega
  obtain ⟨s', hs', he⟩ := ListEntry.new_eq (nonRes_exactLike img all v.st.dataSize himg)
    v.dataPosition (v, d) ⟨hg, hd, hi, rfl⟩
  dsimp only at he
  rw [hb] at he
  obtain ⟨v1, d1⟩ := s'
  have hnil : b = [] ↔ v.streamPosition ≥ v.len := by
    rw [← List.length_eq_zero_iff, hbl]
    simp only [NonRes.streamPosition, NonRes.len]
    omega
  have hlt : e.length < 65536 := by
    unfold entryRes at hx
    split at hx
    · cases hx
    split at hx
    · cases hx
    split at hx
    · cases hx
    injection hx with hx
    rw [← hx]
    exact field_lt (d := b) (a := 4) (n := 2) (by omega)
  have hpos : v.st.streamPosition < v.st.dataSize := by
    have : 0 < b.length := List.length_pos_iff.2 hbn
    omega
  have hin : (SeekFrom.current (e.length : Int)).InRange := by
    simp only [SeekFrom.InRange]
    constructor <;> omega
  obtain ⟨sk, hsk0⟩ : ∃ sk, sk = SeekFrom.current (e.length : Int) := ⟨_, rfl⟩
  rw [← hsk0] at hin
  have hsk := NonRes.seek_good img all v hg sk hin
  have ht : seekTarget v.st.streamPosition v.st.dataSize sk =
      ((v.st.streamPosition + e.length : Nat) : Int) := by
    rw [hsk0]
    simp only [seekTarget]; omega
  rw [ht, if_pos (by simp only [validTarget]; omega)] at hsk
  obtain ⟨v', g1, g2, g3, g4, g5⟩ := hsk
  rw [Int.toNat_natCast] at g1 g5
  refine ⟨v', d1, ?_, ⟨himg, all, g2, by omega, ?_⟩, hs'.2.1, hs'.2.2.1, g4⟩
  · simp only [AttrList.next, AttrList.nextNonResident]
    rw [if_neg (fun h' => hbn (hnil.2 h')), he, hx]
    dsimp only
    rw [← hsk0, g1]
  · rw [g4, g5, ← List.drop_drop, hb]

/-- Whether a list shows entries that claim more bytes than are left. -/
def AttrList.keeps : AttrList → Bool
  | .resident _ _ => false
  | .nonResident _ => true

/-- The size of a list leaves room for one more entry below 2^64. -/
def AttrList.Limited : AttrList → Prop
  | .resident _ _ => True
  | .nonResident v => v.st.dataSize + U16 ≤ U64

theorem AttrList.calls_shown (img : Bytes) (k : Nat) (l : AttrList) (b : Bytes) (hh : l.Holds img b)
    (hlim : l.Limited) (d : Dev) (hd : d.NoFail) (hi : d.img = img) :
    (AttrList.calls k (l, d)).map showCall = listCalls l.keeps k b := by
  induction k generalizing l b d with
  | zero => rfl
  | succ k ih =>
    obtain ⟨d', h1, h2, h3, h4, h5⟩ := AttrList.next_holds img l b hh d hd hi
    simp only [AttrList.calls, List.map_cons, listCalls]
    by_cases hb : b = []
    · rw [if_pos hb, h3 hb]
      exact congrArg _ (ih l b hh hlim d' h1 h2)
    rw [if_neg hb]
    by_cases c1 : b.length < 26
    · have he : entryRes b l.position = .err (.io .unexpectedEof) := by
        unfold entryRes; rw [if_pos c1]
      rw [if_pos c1, h4 _ hb he]
      exact congrArg _ (ih l b hh hlim d' h1 h2)
    rw [if_neg c1]
    have hcomm : 2 * field b 6 1 = field b 6 1 * 2 := Nat.mul_comm _ _
    by_cases c2 : field b 4 2 < 26 + 2 * field b 6 1
    · have he : entryRes b l.position =
          .err (.invalidStructuredValueSize l.position .attributeList (field b 4 2)
            (26 + 2 * field b 6 1)) := by
        unfold entryRes; rw [if_neg c1, ← hcomm, if_pos c2]
      rw [if_pos c2, h4 _ hb he]
      exact congrArg _ (ih l b hh hlim d' h1 h2)
    rw [if_neg c2]
    by_cases c3 : b.length < 26 + 2 * field b 6 1
    · have he : entryRes b l.position = .err (.io .unexpectedEof) := by
        unfold entryRes; rw [if_neg c1, ← hcomm, if_neg c2, if_pos c3]
      rw [if_pos c3, h4 _ hb he]
      exact congrArg _ (ih l b hh hlim d' h1 h2)
    rw [if_neg c3]
    have he : entryRes b l.position = .ok (entryAt b l.position) := by
      unfold entryRes; rw [if_neg c1, ← hcomm, if_neg c2, if_neg c3]
    have hlen : (entryAt b l.position).length = field b 4 2 := rfl
    cases l with
    | resident s p =>
      by_cases c4 : field b 4 2 ≤ b.length
      · rw [if_pos c4]
        obtain ⟨l', q1, q2, q3, q4⟩ := h5 _ hb he (by rw [hlen]; exact c4)
        rw [q1]
        have := q4 s p rfl
        subst this
        have hi' := ih _ _ q2 trivial d' h1 h2
        rw [hlen] at hi'
        dsimp only [showCall]
        rw [view_entryAt]
        exact congrArg _ hi'
      · rw [if_neg c4]
        change s = b at hh
        subst hh
        have hn : AttrList.next (.resident s p, d) = (.ok none, (.resident s p, d)) := by
          rw [C24_arbitrary_resident, if_neg hb, if_neg c1, if_neg c2, if_neg c3, if_pos (by omega)]
        rw [hn]
        exact congrArg _ (ih (.resident s p) s (show s = s from rfl) trivial d hd hi)
    | nonResident v =>
      obtain ⟨v', d'', q1, q2, q3, q4, q5⟩ := AttrList.next_overrun img v b hh d hd hi hb _ he hlim
      have hi' := ih (.nonResident v') _ q2 (by show _ ≤ _; rw [q5]; exact hlim) d'' q3 q4
      rw [hlen] at hi'
      rw [q1]
      dsimp only [showCall]
      rw [view_entryAt]
      by_cases c4 : field b 4 2 ≤ b.length
      · rw [if_pos c4]
        exact congrArg _ hi'
      · rw [if_neg c4, List.drop_eq_nil_of_le (by omega)] at *
        exact congrArg _ hi'

/-- C73: what any number of calls on a list in the record show, for arbitrary contents. -/
theorem C73_resident (b : Bytes) (pos : Pos) (d : Dev) (hd : d.NoFail) (k : Nat) :
    (AttrList.calls k (.resident b pos, d)).map showCall = listCalls false k b :=
  AttrList.calls_shown d.img k (.resident b pos) b rfl trivial d hd rfl

/-- C73: what any number of calls on a list in clusters show, for arbitrary contents. -/
theorem C73_non_resident (cs : Nat) (img data : Bytes) (rs : List Extent) (p : Pos) (size : Nat)
    (hst : StoredAs cs img data rs) (hsize : size + U16 ≤ U64)
    (hle : size ≤ (content cs img rs).length) (d : Dev) (hd : d.NoFail) (hi : d.img = img) (k : Nat) :
    ∃ v, NonRes.new cs data p size = .ok v ∧
      (AttrList.calls k (.nonResident v, d)).map showCall =
        listCalls true k ((content cs img rs).take size) := by
  obtain ⟨v, h1, h2, h3, h4, _⟩ := NonRes.new_good hst p size (by omega)
  refine ⟨v, h1, AttrList.calls_shown img k (.nonResident v) _ ⟨hst.imgLt, _, h2, ?_, ?_⟩ ?_ d hd hi⟩
  · rw [h3, restBytes_runOf]; exact hle
  · rw [h3, h4, restBytes_runOf, List.drop_zero]
  · show v.st.dataSize + _ ≤ _
    rw [h3]; exact hsize

theorem listCalls_same {b : Bytes} (h : NoOverrun b) (k : Nat) :
    listCalls true k b = listCalls false k b := by
  induction k generalizing b with
  | zero => rfl
  | succ k ih =>
    simp only [listCalls]
    by_cases c0 : b = []
    · rw [if_pos c0, if_pos c0, ih h]
    rw [if_neg c0, if_neg c0]
    by_cases c1 : b.length < 26
    · rw [if_pos c1, if_pos c1, ih h]
    rw [if_neg c1, if_neg c1]
    by_cases c2 : field b 4 2 < 26 + 2 * field b 6 1
    · rw [if_pos c2, if_pos c2, ih h]
    rw [if_neg c2, if_neg c2]
    by_cases c3 : b.length < 26 + 2 * field b 6 1
    · rw [if_pos c3, if_pos c3, ih h]
    rw [if_neg c3, if_neg c3]
    cases h with
    | stop _ h => omega
    | next _ h1 h2 => rw [if_pos h1, if_pos h1, ih h2]

/-- C73: if no entry claims more bytes than are left, any number of calls show the same for both forms
of the list: the same entries, the same errors (apart from positions), the end at the same place. -/
theorem C73_same_partial (cs : Nat) (img data : Bytes) (rs : List Extent) (p q : Pos) (size : Nat)
    (hst : StoredAs cs img data rs) (hsize : size + U16 ≤ U64)
    (hle : size ≤ (content cs img rs).length) (hno : NoOverrun ((content cs img rs).take size))
    (d d' : Dev) (hd : d.NoFail) (hi : d.img = img) (hd' : d'.NoFail) (k : Nat) :
    ∃ v, NonRes.new cs data p size = .ok v ∧
      (AttrList.calls k (.nonResident v, d)).map showCall =
        (AttrList.calls k (.resident ((content cs img rs).take size) q, d')).map showCall := by
  obtain ⟨v, h1, h2⟩ := C73_non_resident cs img data rs p size hst hsize hle d hd hi k
  exact ⟨v, h1, by rw [h2, listCalls_same hno, C73_resident _ _ _ hd']⟩

theorem noOverrun_of_encodes {es : List LEntry} {b : Bytes} (h : ListEncodes es b) : NoOverrun b := by
  induction h with
  | nil => exact .stop _ (Or.inl (by decide))
  | cons e pad es rest hf hs _ ih =>
    obtain ⟨_, _, g3, g4⟩ := entryAt_encode e pad rest hf hs none
    have g3' : field (e.encode pad ++ rest) 4 2 = (e.encode pad).length := g3
    refine .next _ ?_ ?_
    · rw [g3', List.length_append]; omega
    · rw [g3', List.drop_left]; exact ih

/-- C73: lists that are encoded as documented have no such entries. -/
theorem C73_sound_lists {es : List LEntry} {b : Bytes} (h : ListEncodes es b) : NoOverrun b :=
  noOverrun_of_encodes h

theorem listCalls_fixed (keep : Bool) (k : Nat) (b : Bytes) (x : Shown) (l : List Shown)
    (h : listCalls keep (k + 1) b = x :: l) (hx : ∀ e, x ≠ .entry e) :
    l = List.replicate k x ∧ listCalls keep k b = List.replicate k x := by
  have key : ∀ j y m, listCalls keep (j + 1) b = y :: m → (∀ e, y ≠ .entry e) → m = listCalls keep j b := by
    intro j y m hy hne
    simp only [listCalls] at hy
    repeat' split at hy
    all_goals
      injection hy with hy1 hy2
      first
        | exact hy2.symm
        | exact absurd hy1.symm (hne _)
  have hh : ∀ j, ∃ m, listCalls keep (j + 1) b = x :: m := by
    intro j
    simp only [listCalls] at h ⊢
    repeat' split at h
    all_goals
      injection h with h1 h2
      first
        | exact absurd h1.symm (hx _)
        | (subst h1; refine ⟨listCalls keep j b, ?_⟩; simp only [*, Bool.false_eq_true, ↓reduceIte]; done)
  have all : ∀ j, listCalls keep j b = List.replicate j x := by
    intro j
    induction j with
    | zero => rfl
    | succ j ih =>
      obtain ⟨m, hm⟩ := hh j
      rw [hm, key j x m hm hx, ih, List.replicate_succ]
  exact ⟨(key k x l h hx).trans (all k), all k⟩

/-- C73: errors and ends are final on both forms. Once a call shows no entry, all later ones show the
same. -/
theorem C73_final (img : Bytes) (k : Nat) (l : AttrList) (b : Bytes) (hh : l.Holds img b)
    (hlim : l.Limited) (d : Dev) (hd : d.NoFail) (hi : d.img = img) (x : Shown) (r : List Shown)
    (h : (AttrList.calls (k + 1) (l, d)).map showCall = x :: r) (hx : ∀ e, x ≠ .entry e) :
    r = List.replicate k x := by
  rw [AttrList.calls_shown img (k + 1) l b hh hlim d hd hi] at h
  exact (listCalls_fixed _ _ _ _ _ h hx).1

/-! Concrete cases. -/

/-- `exList` in two runs. -/
def exListImg : Bytes :=
  List.replicate 64 0 ++ exList.take 32 ++ List.replicate 32 7 ++ exList.drop 32 ++ List.replicate 6 1

theorem exListImg_stored :
    StoredAs 32 exListImg [0x11, 1, 2, 0x11, 1, 2, 0] [⟨1, some 2⟩, ⟨1, some 4⟩] := by
  refine ⟨by decide, ?_, by simp [Representable], by simp [NonZero, Extent.lcnAfter],
      by simp [InImage, exListImg, exList], by simp [exListImg, exList]⟩
  refine .run 0 1 1 _ _ _ ?_ (.run _ 1 1 _ _ _ ?_ (.terminated _ []))
  · simp [WidthsOk, FitsSigned]
  · simp [WidthsOk, FitsSigned, Extent.lcnAfter]

theorem exListImg_content :
    (content 32 exListImg [⟨1, some 2⟩, ⟨1, some 4⟩]).take 58 = exList := by decide

/-- `C73_same_partial` applies, and both forms show two entries and the end. -/
example : ∃ v, NonRes.new 32 [0x11, 1, 2, 0x11, 1, 2, 0] (some 900) 58 = .ok v ∧
    (AttrList.calls 4 (.nonResident v, ⟨exListImg, 0, []⟩)).map showCall =
      [.entry ⟨0x80, 0, 9 + 3 * 2 ^ 48, 5, [97, 98]⟩, .entry ⟨0xA0, -1, 10 + 3 * 2 ^ 48, 6, []⟩,
        .done, .done] := by
  obtain ⟨v, h1, h2⟩ := C73_same_partial 32 exListImg _ _ (some 900) (some 5) 58 exListImg_stored
    (by decide) (by decide) (by rw [exListImg_content]; exact C73_sound_lists exList_encodes)
    ⟨exListImg, 0, []⟩ ⟨[], 0, []⟩ (by intro x hx; cases hx) rfl (by intro x hx; cases hx) 4
  refine ⟨v, h1, h2.trans ?_⟩
  rw [exListImg_content, C73_resident _ _ _ (by intro x hx; cases hx)]
  decide

/-- `C73_same_partial` also covers lists that are not sound: cut in the second entry, and with a second
entry that is too small for its header. -/
example : NoOverrun (exList.take 40) ∧
    listCalls false 3 (exList.take 40) =
      [.entry ⟨0x80, 0, 9 + 3 * 2 ^ 48, 5, [97, 98]⟩, .cut, .cut] ∧
    NoOverrun (exList.take 36 ++ [25, 0] ++ exList.drop 38) ∧
    listCalls false 3 (exList.take 36 ++ [25, 0] ++ exList.drop 38) =
      [.entry ⟨0x80, 0, 9 + 3 * 2 ^ 48, 5, [97, 98]⟩, .small 25 26, .small 25 26] :=
  ⟨.next _ (by decide) (.stop _ (by decide)), by decide,
    .next _ (by decide) (.stop _ (by decide)), by decide⟩

/-- `C73_final` applies. -/
example : (AttrList.resident (exList.take 20) none).Holds [] (exList.take 20) ∧
    (AttrList.calls 3 (.resident (exList.take 20) none, ⟨[], 0, []⟩)).map showCall =
      [.cut, .cut, .cut] := by
  refine ⟨rfl, ?_⟩
  rw [C73_resident _ _ _ (by intro x hx; cases hx)]
  decide

/-- C73 does not hold in full: the first entry of `exList` alone, with a list that ends right behind its
name. It claims two more bytes. In clusters the list shows the entry; in the record it shows none, and
no error. -/
theorem C73_negation : ∃ v, NonRes.new 32 [0x11, 1, 2, 0x11, 1, 2, 0] none 30 = .ok v ∧
    (content 32 exListImg [⟨1, some 2⟩, ⟨1, some 4⟩]).take 30 = exList.take 30 ∧
    (AttrList.calls 2 (.nonResident v, ⟨exListImg, 0, []⟩)).map showCall =
      [.entry ⟨0x80, 0, 9 + 3 * 2 ^ 48, 5, [97, 98]⟩, .done] ∧
    (AttrList.calls 2 (.resident (exList.take 30) none, ⟨exListImg, 0, []⟩)).map showCall =
      [.done, .done] := by
  have hc : (content 32 exListImg [⟨1, some 2⟩, ⟨1, some 4⟩]).take 30 = exList.take 30 := by decide
  obtain ⟨v, h1, h2⟩ := C73_non_resident 32 exListImg _ _ none 30 exListImg_stored
    (by decide) (by decide) ⟨exListImg, 0, []⟩ (by intro x hx; cases hx) rfl 2
  refine ⟨v, h1, hc, h2.trans ?_, ?_⟩
  · rw [hc]; decide
  · rw [C73_resident _ _ _ (by intro x hx; cases hx)]; decide

end NT
