import Verif.Model.AttrList
import Verif.Lemmas.Attribute
import Verif.Props.C06_ReadExact

namespace NT

open Spec

theorem field_take {b : Bytes} {m o k : Nat} (h : o + k ≤ m) : field (b.take m) o k = field b o k := by
  simp only [field]
  rw [List.drop_take, List.take_take]
  congr 2; omega

theorem field_drop (b : Bytes) (m o k : Nat) : field (b.drop m) o k = field b (m + o) k := by
  simp only [field, List.drop_drop]

theorem idxByte_field {d : Bytes} {i : Nat} (h : i < d.length) : idxByte d i = .ok (field d i 1) := by
  rw [idxByte_ok h]

/-- The entry that the bytes `b` start with. -/
def entryAt (b : Bytes) (pos : Pos) : ListEntry :=
  { tyCode := field b 0 4
    length := field b 4 2
    nameUnits := field b 6 1
    lowestVcn := toI64 (field b 8 8)
    ref := { bytes := (b.drop 16).take 8 }
    inst := field b 24 2
    name := (b.drop 26).take (field b 6 1 * 2)
    position := pos }

/-- The result of decoding an entry from the bytes `b`. -/
def entryRes (b : Bytes) (pos : Pos) : Res ListEntry :=
  if b.length < 26 then .err (.io .unexpectedEof)
  else if field b 4 2 < 26 + field b 6 1 * 2 then
    .err (.invalidStructuredValueSize pos .attributeList (field b 4 2) (26 + field b 6 1 * 2))
  else if b.length < 26 + field b 6 1 * 2 then .err (.io .unexpectedEof)
  else .ok (entryAt b pos)

/-- A reader whose `read_exact` delivers the next of its remaining bytes `rest`, or fails with
`UnexpectedEof`. -/
def ExactLike {σ : Type} (re : Nat → StM σ Bytes) (P : σ → Prop) (rest : σ → Bytes) : Prop :=
  ∀ n s, P s → ∃ s', P s' ∧
    (n ≤ (rest s).length → re n s = (.ok ((rest s).take n), s') ∧ rest s' = (rest s).drop n) ∧
    ((rest s).length < n → re n s = (.err (.io .unexpectedEof), s'))

theorem ofHeader_eq (b : Bytes) (pos : Pos) (h : 26 ≤ b.length) :
    ListEntry.ofHeader (b.take 26) pos = .ok { entryAt b pos with name := [] } := by
  have hl : (b.take 26).length = 26 := by rw [List.length_take]; omega
  unfold ListEntry.ofHeader
  rw [readLE_ok (by omega), Res.bind_ok, readLE_ok (by omega), Res.bind_ok,
    idxByte_field (by omega), Res.bind_ok, readLE_ok (by omega), Res.bind_ok,
    idxRange_ok (by omega) (by omega), Res.bind_ok, readLE_ok (by omega), Res.bind_ok]
  have hr : ((b.take 26).drop 16).take (24 - 16) = (b.drop 16).take 8 := by
    rw [List.drop_take, List.take_take]; rfl
  rw [hr]
  rw [field_take (by omega), field_take (by omega), field_take (by omega), field_take (by omega),
    field_take (by omega)]
  rfl

theorem ListEntry.new_eq {σ : Type} {re : Nat → StM σ Bytes} {P : σ → Prop} {rest : σ → Bytes}
    (h : ExactLike re P rest) (pos : Pos) (s : σ) (hP : P s) :
    ∃ s', P s' ∧ ListEntry.new re pos s = (entryRes (rest s) pos, s') := by
  obtain ⟨s1, hP1, h1⟩ := h 26 s hP
  unfold ListEntry.new entryRes
  by_cases hl : 26 ≤ (rest s).length
  case neg =>
    replace h1 := h1.2 (by omega)
    rw [if_pos (by omega)]
    exact ⟨s1, hP1, StM.bind_of_err h1⟩
  replace h1 := h1.1 hl
  rw [if_neg (by omega), StM.bind_of_ok h1.1]
  have hh : (StM.lift (ListEntry.ofHeader ((rest s).take 26) pos) : StM σ ListEntry) s1 =
      (.ok { entryAt (rest s) pos with name := [] }, s1) := by
    rw [StM.lift_apply, ofHeader_eq _ _ hl]
  rw [StM.bind_of_ok hh]
  unfold ListEntry.validate ListEntry.nameLength
  by_cases hv : field (rest s) 4 2 < 26 + field (rest s) 6 1 * 2
  · rw [if_pos hv]
    refine ⟨s1, hP1, ?_⟩
    have : (26 + (entryAt (rest s) pos).nameUnits * 2 > (entryAt (rest s) pos).length) := hv
    dsimp only
    rw [if_pos this]
    rfl
  rw [if_neg hv]
  have : ¬ (26 + (entryAt (rest s) pos).nameUnits * 2 > (entryAt (rest s) pos).length) := hv
  dsimp only
  rw [if_neg this]
  have hu : (StM.lift (.ok ()) : StM σ Unit) s1 = (.ok (), s1) := rfl
  rw [StM.bind_of_ok hu]
  obtain ⟨s2, hP2, h2⟩ := h ((entryAt (rest s) pos).nameUnits * 2) s1 hP1
  rw [h1.2] at h2
  have hn : (entryAt (rest s) pos).nameUnits = field (rest s) 6 1 := rfl
  rw [hn] at h2 ⊢
  rw [List.length_drop] at h2
  by_cases hl2 : (rest s).length < 26 + field (rest s) 6 1 * 2
  · replace h2 := h2.2 (by omega)
    rw [if_pos hl2]
    exact ⟨s2, hP2, StM.bind_of_err h2⟩
  · replace h2 := h2.1 (by omega)
    rw [if_neg hl2]
    exact ⟨s2, hP2, by rw [StM.bind_of_ok h2.1]; rfl⟩

theorem cursor_exactLike : ExactLike cursorReadExact (fun _ => True) id := by
  intro n s _
  unfold cursorReadExact
  by_cases h : n ≤ s.length
  · rw [if_pos h]
    exact ⟨s.drop n, trivial, fun _ => ⟨rfl, rfl⟩, fun h' => absurd h (Nat.not_le.2 h')⟩
  · rw [if_neg h]
    exact ⟨s, trivial, fun h' => absurd h' h, fun _ => rfl⟩

theorem nonRes_exactLike (img : Bytes) (all : List DataRun) (size : Nat) (himg : img.length < U64) :
    ExactLike NonRes.readExactAttached
      (fun s => s.1.Good img all ∧ s.2.NoFail ∧ s.2.img = img ∧ s.1.st.dataSize = size)
      (fun s => ((restBytes img all).take size).drop s.1.st.streamPosition) := by
  intro n s hP
  obtain ⟨s', hP', e, hr, _⟩ := readExactLoop_readsLike (NonRes.readsLike img all size himg)
    (n + s.2.sched.length + 1) s [] (List.replicate n 0) hP (by simp; omega)
  refine ⟨s', hP', ?_⟩
  rw [List.length_replicate, List.nil_append] at e
  rw [List.length_replicate] at hr
  have e2 : s.1.readExact (List.replicate n 0) s.2 = readExactLoop NonRes.readFn
      (n + s.2.sched.length + 1) s [] (List.replicate n 0) := by
    unfold NonRes.readExact
    rw [List.length_replicate]
  obtain ⟨b, hb⟩ : ∃ b, b = ((restBytes img all).take size).drop s.1.st.streamPosition := ⟨_, rfl⟩
  dsimp only
  rw [← hb] at e hr ⊢
  unfold NonRes.readExactAttached
  dsimp only
  rw [e2, e]
  by_cases hn : n ≤ b.length
  · rw [if_pos hn]
    refine ⟨fun _ => ?_, fun h => by omega⟩
    have hl : (b.take n).length = n := by rw [List.length_take]; omega
    rw [hl] at hr
    rw [hl]
    refine ⟨?_, hr⟩
    simp
  · rw [if_neg hn]
    exact ⟨fun h => absurd h hn, fun _ => rfl⟩

end NT
