import Verif.Lemmas.TameFile

/-! Tests that decide the conditions of `Spec/Harmless.lean` on given bytes, for the examples. -/

namespace NT

open Spec

/-- The offsets at which the bytes `sig` occur. -/
def placesOf (sig : Bytes) : Nat → Bytes → List Nat
  | _, [] => []
  | i, b :: rest => if (b :: rest).take sig.length = sig then i :: placesOf sig (i + 1) rest else placesOf sig (i + 1) rest

theorem mem_placesOf (sig : Bytes) : ∀ (b : Bytes) (i p : Nat), p < b.length → (b.drop p).take sig.length = sig →
    i + p ∈ placesOf sig i b
  | [], _, _, h, _ => absurd h (Nat.not_lt_zero _)
  | x :: b, i, 0, _, h => by
    rw [placesOf, if_pos (by simpa using h)]
    exact List.mem_cons_self
  | x :: b, i, p + 1, hp, h => by
    have := mem_placesOf sig b (i + 1) p (by simpa using hp) (by simpa using h)
    rw [Nat.add_assoc, Nat.add_comm 1 p] at this
    rw [placesOf]
    split
    · exact List.mem_cons_of_mem _ this
    · exact this

instance (d : Bytes) (off len : Nat) : Decidable (AttrAt d off len) :=
  decidable_of_iff (field d off 4 ≠ 0xFFFFFFFF ∧ field d (off + 4) 4 = len ∧ 16 ≤ len ∧ off + len ≤ d.length)
    ⟨fun ⟨a, b, c, e⟩ => ⟨a, b, c, e⟩, fun ⟨a, b, c, e⟩ => ⟨a, b, c, e⟩⟩

/-- The attributes from `off` on, if there are fewer than `fuel`. -/
def attrsFrom (d : Bytes) : Nat → Nat → Option (List (Nat × Nat))
  | 0, _ => none
  | fuel + 1, off =>
    if AttrAt d off (field d (off + 4) 4) then
      (attrsFrom d fuel (off + field d (off + 4) 4)).map ((off, field d (off + 4) 4) :: ·)
    else some []

theorem attrsFrom_sound {d : Bytes} {l : List (Nat × Nat)} {fuel : Nat} (h : attrsFrom d fuel (field d 20 2) = some l)
    {off : Nat} (hb : Boundary d off) : ∃ fuel l', attrsFrom d fuel off = some l' ∧ ∀ x ∈ l', x ∈ l := by
  induction hb with
  | first => exact ⟨fuel, l, h, fun _ hx => hx⟩
  | @next off len _ ha ih =>
    obtain ⟨fuel, l', h1, h2⟩ := ih
    cases fuel with
    | zero => cases h1
    | succ fuel =>
      have hl := ha.length
      rw [attrsFrom, if_pos (by rw [hl]; exact ha), Option.map_eq_some_iff] at h1
      obtain ⟨l'', h3, rfl⟩ := h1
      rw [hl] at h3
      exact ⟨fuel, l'', h3, fun x hx => h2 x (List.mem_cons_of_mem _ hx)⟩

theorem attrsFrom_mem {d : Bytes} {l : List (Nat × Nat)} {fuel : Nat} (h : attrsFrom d fuel (field d 20 2) = some l)
    {off len : Nat} (hb : Boundary d off) (ha : AttrAt d off len) : (off, len) ∈ l := by
  obtain ⟨fuel, l', h1, h2⟩ := attrsFrom_sound h hb
  cases fuel with
  | zero => cases h1
  | succ fuel =>
    have hl := ha.length
    rw [attrsFrom, if_pos (by rw [hl]; exact ha), Option.map_eq_some_iff] at h1
    obtain ⟨l'', h3, rfl⟩ := h1
    apply h2
    rw [hl]
    exact List.mem_cons_self

/-- Decides `RunsFit`. -/
def runsFit (cs : Nat) : Nat → Nat → Bytes → Bool
  | 0, _, _ => false
  | _ + 1, _, [] => true
  | fuel + 1, prev, h :: c =>
    let count := leNat (c.take (h.toNat % 16))
    let delta := signedLE ((c.drop (h.toNat % 16)).take (h.toNat / 16))
    let lcn := (prev : Int) + delta
    if h ≠ 0 ∧ h.toNat % 16 + h.toNat / 16 ≤ c.length ∧ 0 ≤ lcn then
      decide (delta = 0 ∨ lcn.toNat * cs + count * cs ≤ 2 ^ 64) &&
        runsFit cs fuel lcn.toNat (c.drop (h.toNat % 16 + h.toNat / 16))
    else true

theorem runsFit_sound {cs : Nat} {b : Bytes} {prev lcn count : Nat} (h : Stored cs b prev lcn count) :
    ∀ {fuel}, runsFit cs fuel prev b = true → lcn * cs + count * cs ≤ 2 ^ 64 := by
  induction h with
  | here hp hd =>
    intro fuel h
    obtain ⟨hh, c, rfl, h1, _, _, h2, h3, h4, h5⟩ := hp.pair
    cases fuel with
    | zero => cases h
    | succ fuel =>
      have hl := hp.lcn
      rw [h4] at hl hd ⊢
      rw [runsFit, if_pos ⟨h1, h2, hl⟩, Bool.and_eq_true, decide_eq_true_eq] at h
      rw [h3]
      exact h.1.resolve_left hd
  | later hp _ ih =>
    intro fuel h
    obtain ⟨hh, c, rfl, h1, _, _, h2, h3, h4, h5⟩ := hp.pair
    cases fuel with
    | zero => cases h
    | succ fuel =>
      have hl := hp.lcn
      rw [h4] at hl ih
      rw [runsFit, if_pos ⟨h1, h2, hl⟩, Bool.and_eq_true] at h
      rw [h5] at ih
      exact ih h.2

/-- Decides `LengthsOk`. -/
def lengthsOk (d : Bytes) (stop : Nat) : Nat → Nat → Bool
  | 0, _ => false
  | fuel + 1, s =>
    decide (stop ≤ s) || decide (d.length < s + 16 ∨ d.length < s + field d (s + 8) 2) ||
      (decide (13 ≤ field d (s + 8) 2) &&
        (decide (field d (s + 12) 1 / 2 % 2 = 1) || lengthsOk d stop fuel (s + field d (s + 8) 2)))

theorem lengthsOk_sound {d : Bytes} {stop : Nat} : ∀ {fuel s : Nat}, lengthsOk d stop fuel s = true → LengthsOk d stop s
  | 0, _, h => by cases h
  | fuel + 1, s, h => by
    rw [lengthsOk] at h
    simp only [Bool.or_eq_true, Bool.and_eq_true, decide_eq_true_eq] at h
    rcases h with (h | h) | ⟨h, h' | h'⟩
    · exact .done h
    · exact .cut h
    · exact .last h h'
    · exact .more h (lengthsOk_sound h')

/-- Decides `AttrOk`. -/
def attrOk (cs : Nat) (b : Bytes) (off len : Nat) : Bool :=
  if field b (off + 8) 1 = 0 then
    decide (off + 22 ≤ b.length) &&
      (decide (field b off 4 ≠ 0x90) ||
        let r := residentBytes b off
        let n := field r 20 4 - field r 16 4
        decide (37 ≤ field r 8 4) && decide (field r 8 4 < 65536) && decide (field r 16 4 ≤ field r 20 4) &&
          lengthsOk ((r.drop (16 + field r 16 4)).take n) n 100 0)
  else
    decide (off + 56 ≤ b.length) &&
      runsFit cs 100 0 ((b.drop (off + field b (off + 32) 2)).take (len - field b (off + 32) 2))

theorem attrOk_sound {cs : Nat} {b : Bytes} {off len : Nat} (h : attrOk cs b off len = true) : AttrOk cs b off len := by
  unfold attrOk at h
  split at h
  · rename_i h0
    simp only [Bool.or_eq_true, Bool.and_eq_true, decide_eq_true_eq] at h
    exact ⟨fun _ => h.1, fun h1 => absurd h0 h1, fun h1 => absurd h0 h1, fun h1 _ _ _ _ => by
      obtain ⟨⟨⟨h2, h3⟩, h4⟩, h5⟩ := h.2.resolve_left fun hn => hn h1
      exact ⟨⟨h2, h3⟩, h4, lengthsOk_sound h5⟩⟩
  · rename_i h0
    simp only [Bool.and_eq_true, decide_eq_true_eq] at h
    exact ⟨fun h1 => absurd h1 h0, fun _ => h.1, fun _ lcn count hs => runsFit_sound hs h.2, fun _ h1 => absurd h1 h0⟩

/-- Decides that a record is well-formed and that all its attributes satisfy `P`. -/
def recordOk (cs : Nat) (P : Nat → Bool) (b : Bytes) : Bool :=
  match attrsFrom b 100 (field b 20 2) with
  | none => false
  | some l => l.all fun x => attrOk cs b x.1 x.2 && P (field b x.1 4)

theorem recordOk_sound {cs : Nat} {P : Nat → Bool} {b : Bytes} (h : recordOk cs P b = true) :
    RecordOk cs b ∧ ∀ off len, Boundary b off → AttrAt b off len → P (field b off 4) = true := by
  unfold recordOk at h
  split at h
  · cases h
  · rename_i l hl
    rw [List.all_eq_true] at h
    exact ⟨fun off len hb ha => attrOk_sound (Bool.and_eq_true _ _ |>.mp (h _ (attrsFrom_mem hl hb ha))).1,
      fun off len hb ha => (Bool.and_eq_true _ _ |>.mp (h _ (attrsFrom_mem hl hb ha))).2⟩

/-- Every record that can be read from the bytes `img` is well-formed, and its attributes satisfy `P`. -/
def imageOk (cs size : Nat) (P : Nat → Bool) (img : Bytes) : Bool :=
  (placesOf [0x46, 0x49, 0x4C, 0x45] 0 img).all fun p =>
    decide (img.length < p + size) ||
    match (Record.mk ((img.drop p).take size) (some p)).fixup with
    | .ok r => recordOk cs P r.data
    | _ => true

theorem imageOk_sound {cs size : Nat} {P : Nat → Bool} {img : Bytes} (hs : 4 ≤ size) (h : imageOk cs size P img = true)
    {r : Record} (hr : OnDisk size img r) : recordOk cs P r.data = true := by
  obtain ⟨p, h1, h2, h3⟩ := hr
  unfold imageOk at h
  rw [List.all_eq_true] at h
  have hm := h p (by
    have := mem_placesOf [0x46, 0x49, 0x4C, 0x45] img 0 p (by omega) (by
      rw [List.take_take, Nat.min_eq_left hs] at h2
      exact h2)
    rwa [Nat.zero_add] at this)
  rw [h3, Bool.or_eq_true, decide_eq_true_eq] at hm
  exact hm.resolve_left (by omega)

/-- A sufficient condition for a volume to be harmless. -/
theorem Spec.Harmless.ofOnDisk {n : Ntfs} {img : Bytes} (hs : 32 ≤ n.fileRecordSize ∧ n.fileRecordSize < 65536)
    (hm : n.mftPosition ≠ none) (h : ∀ r, OnDisk n.fileRecordSize img r → RecordOk n.clusterSize r.data) :
    Harmless n img := by
  have ht : ∀ m p d f d', n.Like m → d.img = img → n.mftPosition = some p → NFile.new m p 0 d = (.ok f, d') →
      RecordOk n.clusterSize f.recordData := by
    intro m p d f d' hl hd _ e
    have := (NFile.new_noPanic (img := img) (by rw [hl.fileRecordSize]; exact hs) p 0 d hd).val f (by rw [e])
    exact h _ (by rw [← hl.fileRecordSize]; exact this.2.2.2)
  refine ⟨hs, hm, ht, fun m k d f d' hl hd e => h _ ?_⟩
  have := (Ntfs.file_onDisk (n := ⟨n, img⟩) hs hm ht hl k d hd).val f (by rw [e])
  rw [← hl.fileRecordSize]
  exact this.2.2.2

end NT
