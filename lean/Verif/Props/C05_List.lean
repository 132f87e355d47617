import Verif.Props.C05_ReadContract
import Verif.Props.C03_ListValue

namespace NT

open Spec

/-- What the search for the next data run leaves alone: the position and both sizes. -/
structure ALVal.Kept (v w : ALVal) : Prop where
  position : w.st.streamPosition = v.st.streamPosition
  size : w.st.dataSize = v.st.dataSize
  len : w.dataSize = v.dataSize

theorem ALVal.Kept.refl (v : ALVal) : v.Kept v := ⟨rfl, rfl, rfl⟩

theorem ALVal.Kept.trans {u v w : ALVal} (h : u.Kept v) (k : v.Kept w) : u.Kept w :=
  ⟨k.position.trans h.position, k.size.trans h.size, k.len.trans h.len⟩

theorem ALVal.nextConnected_kept (v : ALVal) (d : Dev) : v.Kept (ALVal.nextConnected (v, d)).2.1 := by
  unfold ALVal.nextConnected
  dsimp only
  split
  · exact ⟨rfl, rfl, rfl⟩
  · split
    · exact ⟨rfl, rfl, rfl⟩
    · split
      · split
        · split <;> exact ⟨rfl, rfl, rfl⟩
        all_goals exact ⟨rfl, rfl, rfl⟩
      · exact ⟨rfl, rfl, rfl⟩
    all_goals exact ⟨rfl, rfl, rfl⟩

theorem ALVal.nextAttribute_kept (v : ALVal) (d : Dev) : v.Kept (ALVal.nextAttribute (v, d)).2.1 := by
  unfold ALVal.nextAttribute
  have h := ALVal.nextConnected_kept v d
  rw [StM.bind_apply]
  generalize ALVal.nextConnected (v, d) = q at h ⊢
  obtain ⟨r, v', d'⟩ := q
  dsimp only at h
  cases r with
  | ok o =>
    cases o with
    | none => exact h
    | some e =>
      dsimp only
      split <;> exact h.trans ⟨rfl, rfl, rfl⟩
  | err e => exact h
  | panic p => exact h
  | diverge => exact h

theorem ALVal.nextDataRun_kept (v : ALVal) : v.Kept v.nextDataRun.2 := by
  unfold ALVal.nextDataRun
  repeat' first | exact ⟨rfl, rfl, rfl⟩ | split | dsimp only

theorem ALVal.advance_kept (v : ALVal) (d : Dev) : v.Kept (v.advance d).2.1 := by
  unfold ALVal.advance
  have h := v.nextDataRun_kept
  generalize v.nextDataRun = q at h
  obtain ⟨r, w⟩ := q
  cases r with
  | ok b =>
    cases b with
    | true => exact h
    | false => exact h.trans (ALVal.nextAttribute_kept w d)
  | err e => exact h
  | panic p => exact h
  | diverge => exact h

theorem ALVal.readLoop_contract (fuel : Nat) (v : ALVal) (buf : Bytes) (br : Nat) (d : Dev)
    (hbr : br ≤ buf.length) :
    ∃ b, br + b.length ≤ buf.length ∧
      (ALVal.readLoop fuel v buf br d).2.2.1 = overwrite buf br b ∧
      (ALVal.readLoop fuel v buf br d).2.1.st.streamPosition = v.st.streamPosition + b.length ∧
      (ALVal.readLoop fuel v buf br d).2.1.st.dataSize = v.st.dataSize ∧
      (ALVal.readLoop fuel v buf br d).2.1.dataSize = v.dataSize ∧
      (b.length = 0 ∨ v.st.streamPosition + b.length ≤ v.st.dataSize) ∧
      (∀ n, (ALVal.readLoop fuel v buf br d).1 = .ok n → n = br + b.length) := by
  induction fuel generalizing v buf br d with
  | zero => exact ⟨[], by simpa using hbr, by simp [ALVal.readLoop, overwrite_nil],
      rfl, rfl, rfl, .inl rfl, by intro n hn; simp [ALVal.readLoop] at hn⟩
  | succ fuel ih =>
    unfold ALVal.readLoop
    by_cases hlt : br < buf.length
    case neg =>
      rw [if_neg hlt]
      exact ⟨[], by simpa using hbr, by simp [overwrite_nil], rfl, rfl, rfl, .inl rfl, by
        intro n hn; cases hn; rfl⟩
    rw [if_pos hlt]
    have hnil : ∀ v' : ALVal, v.Kept v' → ∀ (r : Res Nat) (d' : Dev), (∀ n, r = .ok n → n = br) →
        ∃ b : Bytes, br + b.length ≤ buf.length ∧
          ((r, v', buf, d') : Res Nat × ALVal × Bytes × Dev).2.2.1 = overwrite buf br b ∧
          v'.st.streamPosition = v.st.streamPosition + b.length ∧
          v'.st.dataSize = v.st.dataSize ∧ v'.dataSize = v.dataSize ∧
          (b.length = 0 ∨ v.st.streamPosition + b.length ≤ v.st.dataSize) ∧
          (∀ n, r = .ok n → n = br + b.length) := by
      intro v' h1 r d' h4
      exact ⟨[], by simpa using hbr, by simp [overwrite_nil], by simpa using h1.position, h1.size, h1.len,
        .inl rfl, by simpa using h4⟩
    rcases readDataRun_cases v.st buf br d hbr with ⟨s', b, d', e, h1, h2, h3⟩ | ⟨e, d', he⟩ | ⟨e, _⟩
    · rw [e]
      by_cases hb : 0 < b.length
      · rw [show (decide (0 < b.length)) = true from by simpa using hb]
        dsimp only
        have hol : (overwrite buf br b).length = buf.length := overwrite_length h1
        obtain ⟨b', g1, g2, g3, g4, g5, g6, g7⟩ := ih { v with st := s' } (overwrite buf br b)
          (br + b.length) d' (by rw [hol]; exact h1)
        have e1 : s'.streamPosition = v.st.streamPosition + b.length := by rw [h3]
        have e2 : s'.dataSize = v.st.dataSize := by rw [h3]
        dsimp only at g3 g4 g5 g6
        rw [e1] at g3 g6
        rw [e2] at g4 g6
        refine ⟨b ++ b', ?_, ?_, ?_, g4, g5, ?_, ?_⟩
        · rw [List.length_append]; omega
        · rw [g2, overwrite_append _ _ _ _ h1]
        · rw [g3, List.length_append]; omega
        · rw [List.length_append]; omega
        · intro n hn; rw [g7 n hn, List.length_append]; omega
      · rw [show (decide (0 < b.length)) = false from by simpa using hb]
        have hb0 : b = [] := List.eq_nil_of_length_eq_zero (by omega)
        subst hb0
        rw [overwrite_nil]
        dsimp only
        have hk : v.Kept { v with st := s' } := ⟨by show s'.streamPosition = _; rw [h3]; rfl,
          by show s'.dataSize = _; rw [h3], rfl⟩
        have hst := ALVal.advance_kept { v with st := s' } d'
        generalize ALVal.advance { v with st := s' } d' = q at hst
        obtain ⟨res, v', d''⟩ := q
        dsimp only at hst
        have hk' := hk.trans hst
        cases res with
        | ok t =>
          cases t with
          | true =>
            dsimp only
            have := ih v' buf br d'' hbr
            rw [hk'.position, hk'.size, hk'.len] at this
            exact this
          | false => exact hnil v' hk' _ d'' (by intro n hn; cases hn; simp)
        | err x => exact hnil v' hk' _ d'' (by intro n hn; cases hn)
        | panic x => exact hnil v' hk' _ d'' (by intro n hn; cases hn)
        | diverge => exact hnil v' hk' _ d'' (by intro n hn; cases hn)
    · rw [he]
      exact hnil v (.refl v) _ d' (by intro n hn; cases hn)
    · rw [e]
      exact hnil v (.refl v) _ d (by intro n hn; cases hn)

/-- The two copies of the data size agree when a value is made from an attribute list. -/
theorem ALVal.new_size {ntfs : Ntfs} {l : AttrList} {inst : Nat} {ty : AttrType} {size : Nat} {d d' : Dev}
    {v : ALVal} (h : ALVal.new ntfs l inst ty size d = (.ok v, d')) :
    v.len = size ∧ v.st.dataSize = size ∧ v.streamPosition = 0 := by
  unfold ALVal.new at h
  dsimp only at h
  obtain ⟨w, hw⟩ : ∃ w : ALVal, w =
    { ntfs := ntfs, initial := l, connected := some l, inst := inst, ty := ty, dataSize := size,
      attrState := none, st := StreamState.new size } := ⟨_, rfl⟩
  rw [← hw] at h
  have hk := ALVal.nextAttribute_kept w d
  generalize ALVal.nextAttribute (w, d) = q at h hk
  obtain ⟨r, v', d''⟩ := q
  cases r with
  | ok b =>
    injection h with h1 h2
    injection h1 with h1
    rw [← h1]
    have e1 := hk.position
    have e2 := hk.size
    have e3 := hk.len
    rw [hw] at e1 e2 e3
    exact ⟨e3, e2, e1⟩
  | err e => injection h with h1 h2; cases h1
  | panic e => injection h with h1 h2; cases h1
  | diverge => injection h with h1 h2; cases h1

/-- C05 for values in an attribute list, in every state and over every device: a successful `read`
returns `n ≤ buf.len()`, changes only the first `n` bytes of the buffer, and moves the position by exactly
`n`, never past the data size. -/
theorem C05_list (v v' : ALVal) (buf buf' : Bytes) (d d' : Dev) (n : Nat)
    (h : v.read buf d = (.ok n, v', buf', d')) (hv : v.st.dataSize = v.len) :
    n ≤ buf.length ∧ buf'.length = buf.length ∧ buf'.drop n = buf.drop n ∧
      v'.streamPosition = v.streamPosition + n ∧ v'.len = v.len ∧ v'.st.dataSize = v'.len ∧
      (n = 0 ∨ v'.streamPosition ≤ v.len) := by
  obtain ⟨b, h1, h2, h3, h4, h5, h6, h7⟩ :=
    ALVal.readLoop_contract (buf.length + v.runFuel + v.leftFuel) v buf 0 d (by omega)
  unfold ALVal.read at h
  rw [h] at h2 h3 h4 h5 h7
  have hn : n = b.length := by simpa using h7 n rfl
  subst hn
  dsimp only at h2 h3 h4 h5
  refine ⟨by omega, ?_, ?_, h3, h5, by unfold ALVal.len at *; omega, ?_⟩
  · rw [h2]; exact overwrite_length (by omega)
  · rw [h2]; exact overwrite_drop_after _ _ _ (by omega) _ (by omega)
  · unfold ALVal.streamPosition ALVal.len at *; omega

/-- A `read` that fails has changed some prefix of the buffer and moved the position by its length. -/
theorem C05_list_failed (v v' : ALVal) (buf buf' : Bytes) (d d' : Dev) (r : Res Nat)
    (h : v.read buf d = (r, v', buf', d')) (hv : v.st.dataSize = v.len) :
    ∃ m, m ≤ buf.length ∧ buf'.length = buf.length ∧ buf'.drop m = buf.drop m ∧
      v'.streamPosition = v.streamPosition + m ∧ (m = 0 ∨ v'.streamPosition ≤ v.len) := by
  obtain ⟨b, h1, h2, h3, h4, h5, h6, h7⟩ :=
    ALVal.readLoop_contract (buf.length + v.runFuel + v.leftFuel) v buf 0 d (by omega)
  unfold ALVal.read at h
  rw [h] at h2 h3 h4 h5 h7
  dsimp only at h2 h3 h4 h5
  refine ⟨b.length, by omega, ?_, ?_, h3, ?_⟩
  · rw [h2]; exact overwrite_length (by omega)
  · rw [h2]; exact overwrite_drop_after _ _ _ (by omega) _ (by omega)
  · unfold ALVal.streamPosition ALVal.len at *; omega

/-- A read across the border between two records, over a device that delivers at most fifty bytes per
call. The last buffer byte stays as it was, as the value has a hundred bytes. -/
example : (match ALVal.new exPartsNtfs (.resident
      ([0x80, 0, 0, 0, 26, 0, 0, 26, 0, 0, 0, 0, 0, 0, 0, 0, 1, 0, 0, 0, 0, 0, 1, 0, 5, 0] ++
        [0x80, 0, 0, 0, 26, 0, 0, 26, 1, 0, 0, 0, 0, 0, 0, 0, 2, 0, 0, 0, 0, 0, 1, 0, 5, 0]) none) 5 .data 100
      ⟨exPartsImage, 0, []⟩ with
    | (.ok v, d) =>
      let r := v.read (List.replicate 101 5) { d with sched := [.chunk 0, .chunk 49] }
      decide (v.st.dataSize = v.len ∧ r.1 = .ok 100 ∧ r.2.1.streamPosition = 100 ∧
        r.2.2.1 = List.replicate 64 0x77 ++ List.replicate 36 0x99 ++ [5])
    | _ => false) = true := by
  decide +kernel

/-- A value of two parts, as both theorems want it: its state knows the whole size. -/
def exListVal : Option (ALVal × Dev) :=
  match ALVal.new exPartsNtfs (.resident
      ([0x80, 0, 0, 0, 26, 0, 0, 26, 0, 0, 0, 0, 0, 0, 0, 0, 1, 0, 0, 0, 0, 0, 1, 0, 5, 0] ++
        [0x80, 0, 0, 0, 26, 0, 0, 26, 1, 0, 0, 0, 0, 0, 0, 0, 2, 0, 0, 0, 0, 0, 1, 0, 5, 0]) none) 5 .data 100
      ⟨exPartsImage, 0, []⟩ with
  | (.ok v, d) => some (v, d)
  | _ => none

/-- `C05_list` and `C05_list_failed` on it: a read that succeeds, and one that fails where the second part begins. -/
example : ∃ v d, exListVal = some (v, d) ∧
    (v.read (List.replicate 70 5) { d with sched := [] }).1 = .ok 70 ∧
    (v.read (List.replicate 70 5) { d with sched := [] }).2.1.streamPosition = v.streamPosition + 70 ∧
    (v.read (List.replicate 70 5) { d with sched := [.chunk 99, .chunk 99, .fail (.other 5)] }).1 = .err (.io (.other 5)) ∧
    ∃ m, m ≤ 70 ∧ (v.read (List.replicate 70 5) { d with sched := [.chunk 99, .chunk 99, .fail (.other 5)] }).2.1.streamPosition =
      v.streamPosition + m := by
  have h : exListVal.isSome ∧ ∀ p ∈ exListVal, p.1.st.dataSize = p.1.len ∧
      (p.1.read (List.replicate 70 5) { p.2 with sched := [] }).1 = .ok 70 ∧
      (p.1.read (List.replicate 70 5) { p.2 with sched := [.chunk 99, .chunk 99, .fail (.other 5)] }).1 = .err (.io (.other 5)) := by
    decide +kernel
  obtain ⟨h1, h2⟩ := h
  cases hp : exListVal with
  | none => rw [hp] at h1; cases h1
  | some p =>
    obtain ⟨v, d⟩ := p
    obtain ⟨g1, g2, g3⟩ := h2 (v, d) hp
    dsimp only at g1 g2 g3
    refine ⟨v, d, rfl, g2, ?_, g3, ?_⟩
    · exact (C05_list v _ _ _ _ _ 70 (Prod.ext g2 rfl) g1).2.2.2.1
    · obtain ⟨m, k1, _, _, k2, _⟩ := C05_list_failed v _ (List.replicate 70 5) _ { d with sched := [.chunk 99, .chunk 99, .fail (.other 5)] } _ _
        (Prod.ext g3 rfl) g1
      exact ⟨m, by rw [List.length_replicate] at k1; exact k1, k2⟩

end NT
