import Verif.Lemmas.AttrList
import Verif.Spec.AttrList
import Verif.Lemmas.SafeRead

namespace NT

open Spec

/-- What the accessors of an entry (`src/structured_values/attribute_list.rs:202-246`) show. -/
def ListEntry.view (e : ListEntry) : LEntry :=
  { ty := e.tyCode, vcn := e.lowestVcn, ref := leNat e.ref.bytes, inst := e.inst, name := u16s e.name }

/-- The results of `n` calls of `next`. -/
def AttrList.calls : Nat → AttrList × Dev → List (Res (Option ListEntry))
  | 0, _ => []
  | n + 1, s => (AttrList.next s).1 :: AttrList.calls n (AttrList.next s).2

/-- The bytes of the list from the position of the iterator on are `b`. -/
def AttrList.Holds (img : Bytes) (l : AttrList) (b : Bytes) : Prop :=
  match l with
  | .resident slice _ => slice = b
  | .nonResident v => img.length < U64 ∧ ∃ all, v.Good img all ∧
      v.st.dataSize ≤ (restBytes img all).length ∧
      ((restBytes img all).take v.st.dataSize).drop v.st.streamPosition = b

theorem toI64_sleBytes (z : Int) (h : -(I63 : Int) ≤ z ∧ z < (I63 : Int)) :
    toI64 (leNat (sleBytes 8 z)) = z := by
  have h1 := leNat_sleBytes 8 z
  have h2 : ((leNat (sleBytes 8 z) : Nat) : Int) = z % 18446744073709551616 := by
    rw [h1]
    have e : (256 : Int) ^ 8 = 18446744073709551616 := by decide
    rw [e]; omega
  unfold toI64
  split <;> omega

theorem flatMap_le2_length (s : List Nat) : (s.flatMap (leBytes 2)).length = 2 * s.length := by
  induction s with
  | nil => rfl
  | cons x s ih => simp only [List.flatMap_cons, List.length_append, ih, List.length_cons]; simp; omega

/-- A field in the middle of a concatenation. -/
theorem field_mid (a x c : Bytes) (o k : Nat) (ho : o = a.length) (hk : k = x.length) :
    field (a ++ (x ++ c)) o k = leNat x := by
  subst ho hk
  simp [field]

theorem entryAt_encode (e : LEntry) (pad rest : Bytes) (h : e.Fits) (hs : e.size pad.length < U16)
    (pos : Pos) :
    entryRes (e.encode pad ++ rest) pos = .ok (entryAt (e.encode pad ++ rest) pos) ∧
    (entryAt (e.encode pad ++ rest) pos).view = e ∧
    (entryAt (e.encode pad ++ rest) pos).length = (e.encode pad).length ∧
    (e.encode pad).length = e.size pad.length := by
  have hsz := hs
  unfold LEntry.size at hsz
  have hl : (e.encode pad).length = e.size pad.length := by
    simp only [LEntry.encode, List.length_append, leBytes_length, sleBytes_length, flatMap_le2_length,
      LEntry.size]
  have f0 : field (e.encode pad ++ rest) 0 4 = e.ty := by
    simp only [LEntry.encode, List.append_assoc]
    have := field_mid [] (leBytes 4 e.ty) (leBytes 2 (e.size pad.length) ++ (leBytes 1 e.name.length ++
      (leBytes 1 26 ++ (sleBytes 8 e.vcn ++ (leBytes 8 e.ref ++ (leBytes 2 e.inst ++
      (e.name.flatMap (leBytes 2) ++ (pad ++ rest)))))))) 0 4 rfl (by simp)
    rw [List.nil_append] at this
    rw [this, leNat_leBytes_of_lt h.ty]
  have f4 : field (e.encode pad ++ rest) 4 2 = e.size pad.length := by
    simp only [LEntry.encode, List.append_assoc]
    have := field_mid (leBytes 4 e.ty) (leBytes 2 (e.size pad.length)) (leBytes 1 e.name.length ++
      (leBytes 1 26 ++ (sleBytes 8 e.vcn ++ (leBytes 8 e.ref ++ (leBytes 2 e.inst ++
      (e.name.flatMap (leBytes 2) ++ (pad ++ rest))))))) 4 2 (by simp) (by simp)
    rw [this, leNat_leBytes_of_lt hs]
  have f6 : field (e.encode pad ++ rest) 6 1 = e.name.length := by
    have := field_mid (leBytes 4 e.ty ++ leBytes 2 (e.size pad.length)) (leBytes 1 e.name.length)
      (leBytes 1 26 ++ (sleBytes 8 e.vcn ++ (leBytes 8 e.ref ++ (leBytes 2 e.inst ++
      (e.name.flatMap (leBytes 2) ++ (pad ++ rest)))))) 6 1 (by simp) (by simp)
    simp only [List.append_assoc] at this
    simp only [LEntry.encode, List.append_assoc]
    rw [this, leNat_leBytes_of_lt h.count]
  have f8 : toI64 (field (e.encode pad ++ rest) 8 8) = e.vcn := by
    have := field_mid (leBytes 4 e.ty ++ leBytes 2 (e.size pad.length) ++ leBytes 1 e.name.length ++
      leBytes 1 26) (sleBytes 8 e.vcn) (leBytes 8 e.ref ++ (leBytes 2 e.inst ++
      (e.name.flatMap (leBytes 2) ++ (pad ++ rest)))) 8 8 (by simp) (by simp [sleBytes_length])
    simp only [List.append_assoc] at this
    simp only [LEntry.encode, List.append_assoc]
    rw [this, toI64_sleBytes _ h.vcn]
  have f16 : leNat (((e.encode pad ++ rest).drop 16).take 8) = e.ref := by
    have := field_mid (leBytes 4 e.ty ++ leBytes 2 (e.size pad.length) ++ leBytes 1 e.name.length ++
      leBytes 1 26 ++ sleBytes 8 e.vcn) (leBytes 8 e.ref) (leBytes 2 e.inst ++
      (e.name.flatMap (leBytes 2) ++ (pad ++ rest))) 16 8 (by simp [sleBytes_length]) (by simp)
    simp only [List.append_assoc] at this
    simp only [LEntry.encode, List.append_assoc]
    simp only [field] at this
    rw [this, leNat_leBytes_of_lt h.ref]
  have f24 : field (e.encode pad ++ rest) 24 2 = e.inst := by
    have := field_mid (leBytes 4 e.ty ++ leBytes 2 (e.size pad.length) ++ leBytes 1 e.name.length ++
      leBytes 1 26 ++ sleBytes 8 e.vcn ++ leBytes 8 e.ref) (leBytes 2 e.inst)
      (e.name.flatMap (leBytes 2) ++ (pad ++ rest)) 24 2 (by simp [sleBytes_length]) (by simp)
    simp only [List.append_assoc] at this
    simp only [LEntry.encode, List.append_assoc]
    rw [this, leNat_leBytes_of_lt h.inst]
  have fname : ((e.encode pad ++ rest).drop 26).take (e.name.length * 2) =
      e.name.flatMap (leBytes 2) := by
    have hp : (leBytes 4 e.ty ++ leBytes 2 (e.size pad.length) ++ leBytes 1 e.name.length ++
      leBytes 1 26 ++ sleBytes 8 e.vcn ++ leBytes 8 e.ref ++ leBytes 2 e.inst).length = 26 := by
      simp [sleBytes_length]
    have hx : e.encode pad ++ rest = (leBytes 4 e.ty ++ leBytes 2 (e.size pad.length) ++
      leBytes 1 e.name.length ++ leBytes 1 26 ++ sleBytes 8 e.vcn ++ leBytes 8 e.ref ++
      leBytes 2 e.inst) ++ (e.name.flatMap (leBytes 2) ++ (pad ++ rest)) := by
      simp only [LEntry.encode, List.append_assoc]
    rw [hx, List.drop_append_of_le_length (by omega), List.drop_eq_nil_of_le (by omega), List.nil_append,
      List.take_append_of_le_length (by rw [flatMap_le2_length]; omega),
      List.take_of_length_le (by rw [flatMap_le2_length]; omega)]
  refine ⟨?_, ?_, ?_, hl⟩
  · unfold entryRes
    rw [f4, f6, List.length_append, hl]
    unfold LEntry.size
    rw [if_neg (by omega), if_neg (by omega), if_neg (by omega)]
  · unfold ListEntry.view entryAt
    dsimp only
    rw [f0, f8, f16, f24, f6, fname, u16s_flatMap _ h.units]
  · rw [hl]; exact f4

/-- One call of `next`, by the remaining bytes of the list. -/
theorem AttrList.next_holds (img : Bytes) (l : AttrList) (b : Bytes) (hh : l.Holds img b) (d : Dev)
    (hd : d.NoFail) (hi : d.img = img) :
    ∃ d', d'.NoFail ∧ d'.img = img ∧
      (b = [] → AttrList.next (l, d) = (.ok none, (l, d'))) ∧
      (∀ x, b ≠ [] → entryRes b l.position = .err x → AttrList.next (l, d) = (.err x, (l, d'))) ∧
      (∀ e, b ≠ [] → entryRes b l.position = .ok e → e.length ≤ b.length →
        ∃ l', AttrList.next (l, d) = (.ok (some e), (l', d')) ∧ l'.Holds img (b.drop e.length) ∧
          l'.remaining + e.length = l.remaining ∧
          ∀ s p, l = .resident s p → l' = .resident (b.drop e.length) (Pos.add p e.length)) := by
  cases l with
  | resident slice position =>
    change slice = b at hh
    subst hh
    obtain ⟨s', _, he⟩ := ListEntry.new_eq cursor_exactLike position slice trivial
    change ListEntry.new cursorReadExact position slice = (entryRes slice position, s') at he
    refine ⟨d, hd, hi, ?_, ?_, ?_⟩
    · intro h
      simp only [AttrList.next, AttrList.nextResident]
      rw [if_pos h]
    · intro x h hx
      simp only [AttrList.next, AttrList.nextResident]
      rw [if_neg h, he]
      simp only [AttrList.position] at hx
      rw [hx]
    · intro e h hx hle
      simp only [AttrList.position] at hx
      refine ⟨.resident (slice.drop e.length) (Pos.add position e.length), ?_, rfl, ?_, ?_⟩
      · simp only [AttrList.next, AttrList.nextResident]
        rw [if_neg h, he, hx]
        dsimp only
        rw [getRange_eq_some hle (Nat.le_refl _), List.take_of_length_le (by simp)]
      · simp only [AttrList.remaining, List.length_drop]; omega
      · rintro s p ⟨⟩; rfl
  | nonResident v =>
    obtain ⟨himg, all, hg, hsz, hb⟩ := hh
    have hbl : b.length = v.st.dataSize - v.st.streamPosition := by
      rw [← hb, List.length_drop, List.length_take]; omega
    obtain ⟨s', hs', he⟩ := ListEntry.new_eq (nonRes_exactLike img all v.st.dataSize himg)
      v.dataPosition (v, d) ⟨hg, hd, hi, rfl⟩
    dsimp only at he
    rw [hb] at he
    obtain ⟨v1, d1⟩ := s'
    have hnil : b = [] ↔ v.streamPosition ≥ v.len := by
      rw [← List.length_eq_zero_iff, hbl]
      simp only [NonRes.streamPosition, NonRes.len]
      omega
    by_cases hbn : b = []
    · refine ⟨d, hd, hi, ?_, fun x h => absurd hbn h, fun e h => absurd hbn h⟩
      intro _
      simp only [AttrList.next, AttrList.nextNonResident]
      rw [if_pos (hnil.1 hbn)]
    refine ⟨d1, hs'.2.1, hs'.2.2.1, fun h => absurd h hbn, ?_, ?_⟩
    · intro x h hx
      simp only [AttrList.position] at hx
      simp only [AttrList.next, AttrList.nextNonResident]
      rw [if_neg (fun h' => hbn (hnil.2 h')), he, hx]
    · intro e h hx hle
      simp only [AttrList.position] at hx
      have hlt : e.length < 65536 := by
        unfold entryRes at hx
        split at hx
        · cases hx
        split at hx
        · cases hx
        split at hx
        · cases hx
        injection hx with hx
        rw [← hx]
        exact field_lt (d := b) (a := 4) (n := 2) (by omega)
      have hposLt := hg.posLt
      have hsizeLt := hg.sizeLt
      have hin : (SeekFrom.current (e.length : Int)).InRange := by
        simp only [SeekFrom.InRange]
        constructor <;> omega
      obtain ⟨sk, hsk0⟩ : ∃ sk, sk = SeekFrom.current (e.length : Int) := ⟨_, rfl⟩
      rw [← hsk0] at hin
      have hsk := NonRes.seek_good img all v hg sk hin
      have ht : seekTarget v.st.streamPosition v.st.dataSize sk =
          ((v.st.streamPosition + e.length : Nat) : Int) := by
        rw [hsk0]
        simp only [seekTarget]; omega
      rw [ht, if_pos (by simp only [validTarget]; omega)] at hsk
      obtain ⟨v', g1, g2, g3, g4, g5⟩ := hsk
      rw [Int.toNat_natCast] at g1 g5
      refine ⟨.nonResident v', ?_, ⟨himg, all, g2, by omega, ?_⟩, ?_, ?_⟩
      · simp only [AttrList.next, AttrList.nextNonResident]
        rw [if_neg (fun h' => hbn (hnil.2 h')), he, hx]
        dsimp only
        rw [← hsk0, g1]
      · rw [g4, g5, ← List.drop_drop, hb]
      · simp only [AttrList.remaining, NonRes.len, NonRes.streamPosition]
        omega
      · rintro s p ⟨⟩

theorem AttrList.calls_encoded (img : Bytes) (es : List LEntry) (b : Bytes) (h : ListEncodes es b)
    (k : Nat) (l : AttrList) (hh : l.Holds img b) (d : Dev) (hd : d.NoFail) (hi : d.img = img) :
    ∃ got : List ListEntry, AttrList.calls (es.length + k) (l, d) =
        got.map (fun e => .ok (some e)) ++ List.replicate k (.ok none) ∧
      got.map ListEntry.view = es := by
  induction h generalizing l d with
  | nil =>
    refine ⟨[], ?_, rfl⟩
    simp only [List.length_nil, Nat.zero_add, List.map_nil, List.nil_append]
    induction k generalizing d with
    | zero => rfl
    | succ k ih =>
      obtain ⟨d', h1, h2, h3, _⟩ := AttrList.next_holds img l [] hh d hd hi
      simp only [AttrList.calls, h3 rfl, List.replicate_succ]
      rw [ih d' h1 h2]
  | cons e pad es rest hf hs _ ih =>
    obtain ⟨g1, g2, g3, g4⟩ := entryAt_encode e pad rest hf hs l.position
    obtain ⟨d', h1, h2, _, _, h3⟩ := AttrList.next_holds img l _ hh d hd hi
    have hne : e.encode pad ++ rest ≠ [] := by
      intro h'
      have := congrArg List.length h'
      rw [List.length_append, g4] at this
      simp only [LEntry.size, List.length_nil] at this
      omega
    obtain ⟨l', h4, h5, _⟩ := h3 _ hne g1 (by rw [g3, List.length_append]; omega)
    rw [g3, List.drop_left] at h5
    obtain ⟨got, i1, i2⟩ := ih l' h5 d' h1 h2
    refine ⟨entryAt (e.encode pad ++ rest) l.position :: got, ?_, ?_⟩
    · have : (e :: es).length + k = (es.length + k) + 1 := by simp; omega
      rw [this]
      simp only [AttrList.calls, h4, i1, List.map_cons, List.cons_append]
    · rw [List.map_cons, g2, i2]

/-- C24: the entries of a resident attribute list are exactly the encoded ones, in order; then the
iterator ends and stays at the end. -/
theorem C24_resident (es : List LEntry) (b : Bytes) (h : ListEncodes es b) (pos : Pos) (d : Dev)
    (hd : d.NoFail) (k : Nat) :
    ∃ got : List ListEntry, AttrList.calls (es.length + k) (.resident b pos, d) =
        got.map (fun e => .ok (some e)) ++ List.replicate k (.ok none) ∧
      got.map ListEntry.view = es :=
  AttrList.calls_encoded d.img es b h k (.resident b pos) rfl d hd rfl

/-- C24: the same for a non-resident list whose contents are stored in the runs `rs`. The device may
split reads in any way. -/
theorem C24_non_resident (es : List LEntry) (cs : Nat) (img data : Bytes) (rs : List Extent) (p : Pos)
    (size : Nat) (hst : StoredAs cs img data rs) (hsize : size < U64)
    (hle : size ≤ (content cs img rs).length) (h : ListEncodes es ((content cs img rs).take size))
    (d : Dev) (hd : d.NoFail) (hi : d.img = img) (k : Nat) :
    ∃ v, NonRes.new cs data p size = .ok v ∧
      ∃ got : List ListEntry, AttrList.calls (es.length + k) (.nonResident v, d) =
          got.map (fun e => .ok (some e)) ++ List.replicate k (.ok none) ∧
        got.map ListEntry.view = es := by
  obtain ⟨v, h1, h2, h3, h4, _⟩ := NonRes.new_good hst p size hsize
  refine ⟨v, h1, AttrList.calls_encoded img es _ h k (.nonResident v) ⟨hst.imgLt, _, h2, ?_, ?_⟩ d hd hi⟩
  · rw [h3, restBytes_runOf]; exact hle
  · rw [h3, h4, restBytes_runOf, List.drop_zero]

/-- C24: one call of `next` on a resident list with arbitrary bytes `b`, completely: an entry is
decoded from its documented offsets if it has room for header and name; an entry that claims more
bytes than are left ends the iteration silently; nothing else is possible. -/
theorem C24_arbitrary_resident (b : Bytes) (pos : Pos) (d : Dev) :
    AttrList.next (.resident b pos, d) =
      if b = [] then (.ok none, (.resident b pos, d))
      else if b.length < 26 then (.err (.io .unexpectedEof), (.resident b pos, d))
      else if field b 4 2 < 26 + 2 * field b 6 1 then
        (.err (.invalidStructuredValueSize pos .attributeList (field b 4 2) (26 + 2 * field b 6 1)),
          (.resident b pos, d))
      else if b.length < 26 + 2 * field b 6 1 then
        (.err (.io .unexpectedEof), (.resident b pos, d))
      else if b.length < field b 4 2 then (.ok none, (.resident b pos, d))
      else
        (.ok (some
          { tyCode := field b 0 4
            length := field b 4 2
            nameUnits := field b 6 1
            lowestVcn := toI64 (field b 8 8)
            ref := ⟨(b.drop 16).take 8⟩
            inst := field b 24 2
            name := (b.drop 26).take (2 * field b 6 1)
            position := pos }),
          (.resident (b.drop (field b 4 2)) (Pos.add pos (field b 4 2)), d)) := by
  obtain ⟨s', _, he⟩ := ListEntry.new_eq cursor_exactLike pos b trivial
  change ListEntry.new cursorReadExact pos b = (entryRes b pos, s') at he
  have hcomm : 2 * field b 6 1 = field b 6 1 * 2 := Nat.mul_comm _ _
  rw [hcomm]
  simp only [AttrList.next, AttrList.nextResident]
  by_cases h0 : b = []
  · rw [if_pos h0, if_pos h0]
  rw [if_neg h0, if_neg h0, he]
  unfold entryRes
  by_cases h1 : b.length < 26
  · rw [if_pos h1, if_pos h1]
  rw [if_neg h1, if_neg h1]
  by_cases h2 : field b 4 2 < 26 + field b 6 1 * 2
  · rw [if_pos h2, if_pos h2]
  rw [if_neg h2, if_neg h2]
  by_cases h3 : b.length < 26 + field b 6 1 * 2
  · rw [if_pos h3, if_pos h3]
  rw [if_neg h3, if_neg h3]
  dsimp only
  have hlen : (entryAt b pos).length = field b 4 2 := rfl
  rw [hlen]
  by_cases h4 : b.length < field b 4 2
  · rw [if_pos h4]
    have : getRange b (field b 4 2) b.length = none := by
      unfold getRange; rw [if_neg (by omega)]
    rw [this]
  · rw [if_neg h4, getRange_eq_some (by omega) (Nat.le_refl _), List.take_of_length_le (by simp)]
    rfl

theorem NonRes.nextDataRun_keeps (v : NonRes) :
    v.nextDataRun.2.st.streamPosition = v.st.streamPosition ∧
      v.nextDataRun.2.st.dataSize = v.st.dataSize := by
  rw [nextDataRun_st]; exact ⟨rfl, rfl⟩

theorem seekDataRun_keeps (s : StreamState) (pos : SeekFrom) (left : Nat) :
    (s.seekDataRun pos left).2.1.streamPosition = s.streamPosition ∧
      (s.seekDataRun pos left).2.1.dataSize = s.dataSize := by
  unfold StreamState.seekDataRun
  repeat' first | split | exact ⟨rfl, rfl⟩ | dsimp only

theorem seekLoop_keeps (fuel : Nat) (v : NonRes) (pos : SeekFrom) (left : Nat) :
    (NonRes.seekLoop fuel v pos left).2.st.streamPosition = v.st.streamPosition ∧
      (NonRes.seekLoop fuel v pos left).2.st.dataSize = v.st.dataSize := by
  induction fuel generalizing v left with
  | zero => exact ⟨rfl, rfl⟩
  | succ fuel ih =>
    unfold NonRes.seekLoop
    split
    · have h := seekDataRun_keeps v.st pos left
      cases hr : v.st.seekDataRun pos left with
      | mk res rest =>
      obtain ⟨s', n'⟩ := rest
      rw [hr] at h
      dsimp only at h
      rcases res with (_ | _) | e | p | _ <;> dsimp only
      · have hn := NonRes.nextDataRun_keeps { v with st := s' }
        cases hx : NonRes.nextDataRun { v with st := s' } with
        | mk res v' =>
        rw [hx] at hn
        dsimp only at hn
        rcases res with (_ | _) | e | p | _ <;> dsimp only
        · exact ⟨by omega, by omega⟩
        · obtain ⟨i1, i2⟩ := ih v' n'
          exact ⟨by omega, by omega⟩
        all_goals exact ⟨by omega, by omega⟩
      all_goals exact h
    · exact ⟨rfl, rfl⟩

/-- Seeking forward by `n` advances the stream position by exactly `n`, whatever the state. -/
theorem NonRes.seek_forward (v : NonRes) (n p : Nat) (v' : NonRes)
    (h : v.seek (.current n) = (.ok p, v')) :
    v'.st.streamPosition = v.st.streamPosition + n ∧ v'.st.dataSize = v.st.dataSize := by
  have ho : v.st.optimizeSeek (.current (n : Int)) v.len = .ok (.current (n : Int)) ∨
      v.st.optimizeSeek (.current (n : Int)) v.len = .err (.io .invalidInput) := by
    unfold StreamState.optimizeSeek StreamState.simplifySeek checkedAddU64
    dsimp only
    rw [if_pos (by omega)]
    by_cases h : v.st.streamPosition + (n : Int).toNat < U64
    · rw [if_pos h]; exact .inl rfl
    · rw [if_neg h]; exact .inr rfl
  unfold NonRes.seek at h
  rcases ho with ho | ho
  · rw [ho] at h
    dsimp only at h
    rw [if_pos (by omega)] at h
    have hk := seekLoop_keeps (v.data.length + 2) v (.current (n : Int)) (n : Int).toNat
    generalize NonRes.seekLoop (v.data.length + 2) v (.current (n : Int)) (n : Int).toNat = q at h hk
    obtain ⟨r, v2⟩ := q
    dsimp only at hk
    cases r with
    | ok u =>
      dsimp only at h
      split at h
      · cases h
        dsimp only
        rw [Int.toNat_natCast]
        exact ⟨by omega, hk.2⟩
      · cases h
    | err e => cases h
    | panic p => cases h
    | diverge => cases h
  · rw [ho] at h
    cases h

/-- Whatever the reader does, an entry that is returned is at least 26 bytes long. -/
theorem ListEntry.new_length {σ : Type} (re : Nat → StM σ Bytes) (pos : Pos) (s s' : σ) (e : ListEntry)
    (h : ListEntry.new re pos s = (.ok e, s')) : 26 + 2 * e.nameUnits ≤ e.length := by
  unfold ListEntry.new at h
  rw [StM.bind_apply] at h
  cases h1 : re 26 s with
  | mk r1 s1 =>
  rw [h1] at h
  cases r1 with
  | err e => cases h
  | panic p => cases h
  | diverge => cases h
  | ok hb =>
    dsimp only at h
    rw [StM.bind_apply, StM.lift_apply] at h
    cases h2 : ListEntry.ofHeader hb pos with
    | err e => rw [h2] at h; cases h
    | panic p => rw [h2] at h; cases h
    | diverge => rw [h2] at h; cases h
    | ok e0 =>
      rw [h2] at h
      dsimp only at h
      rw [StM.bind_apply, StM.lift_apply] at h
      unfold ListEntry.validate at h
      by_cases hv : 26 + e0.nameLength > e0.length
      · rw [if_pos hv] at h; cases h
      · rw [if_neg hv] at h
        dsimp only at h
        rw [StM.bind_apply] at h
        cases h3 : re e0.nameLength s1 with
        | mk r3 s3 =>
        rw [h3] at h
        cases r3 with
        | err e => cases h
        | panic p => cases h
        | diverge => cases h
        | ok nm =>
          cases h
          simp only [ListEntry.nameLength] at hv
          dsimp only
          omega

/-- C24: on any list, well-formed or not, and any device, a call that returns an entry has consumed
at least 26 bytes of the list. -/
theorem C24_progress (l l' : AttrList) (d d' : Dev) (e : ListEntry)
    (h : AttrList.next (l, d) = (.ok (some e), (l', d'))) :
    26 ≤ e.length ∧ 0 < l.remaining ∧ l'.remaining = l.remaining - e.length := by
  cases l with
  | resident b pos =>
    rw [C24_arbitrary_resident] at h
    split at h
    · cases h
    rename_i h0
    split at h
    · cases h
    split at h
    · cases h
    split at h
    · cases h
    split at h
    · cases h
    cases h
    have : 0 < b.length := List.length_pos_iff.2 h0
    refine ⟨by dsimp only; omega, by simp only [AttrList.remaining]; omega, ?_⟩
    simp only [AttrList.remaining, List.length_drop]
  | nonResident v =>
    simp only [AttrList.next, AttrList.nextNonResident] at h
    by_cases h0 : v.streamPosition ≥ v.len
    · rw [if_pos h0] at h; cases h
    rw [if_neg h0] at h
    cases hn : ListEntry.new NonRes.readExactAttached v.dataPosition (v, d) with
    | mk r s =>
    obtain ⟨v1, d1⟩ := s
    rw [hn] at h
    cases r with
    | err e => cases h
    | panic p => cases h
    | diverge => cases h
    | ok e1 =>
      have hl := ListEntry.new_length _ _ _ _ _ hn
      dsimp only at h
      cases hs : v.seek (.current (e1.length : Int)) with
      | mk r2 v2 =>
      rw [hs] at h
      cases r2 with
      | err e => cases h
      | panic p => cases h
      | diverge => cases h
      | ok p2 =>
        cases h
        obtain ⟨g1, g2⟩ := NonRes.seek_forward v e.length p2 v2 hs
        simp only [AttrList.remaining, NonRes.len, NonRes.streamPosition] at *
        omega

theorem NonRes.seek_forward_keeps (v : NonRes) (n : Nat) :
    v.st.streamPosition ≤ (v.seek (.current n)).2.st.streamPosition ∧
      (v.seek (.current n)).2.st.dataSize = v.st.dataSize := by
  have ho : v.st.optimizeSeek (.current (n : Int)) v.len = .ok (.current (n : Int)) ∨
      v.st.optimizeSeek (.current (n : Int)) v.len = .err (.io .invalidInput) := by
    unfold StreamState.optimizeSeek StreamState.simplifySeek checkedAddU64
    dsimp only
    rw [if_pos (by omega)]
    by_cases h : v.st.streamPosition + (n : Int).toNat < U64
    · rw [if_pos h]; exact .inl rfl
    · rw [if_neg h]; exact .inr rfl
  unfold NonRes.seek
  rcases ho with ho | ho
  · rw [ho]
    dsimp only
    rw [if_pos (by omega)]
    have hk := seekLoop_keeps (v.data.length + 2) v (.current (n : Int)) (n : Int).toNat
    generalize NonRes.seekLoop (v.data.length + 2) v (.current (n : Int)) (n : Int).toNat = q at hk
    obtain ⟨r, v2⟩ := q
    dsimp only at hk
    cases r with
    | ok u =>
      dsimp only
      split
      · dsimp only
        omega
      · dsimp only
        omega
    | err e => dsimp only; omega
    | panic p => dsimp only; omega
    | diverge => dsimp only; omega
  · rw [ho]
    dsimp only
    omega

/-- No call makes the list grow. -/
theorem AttrList.next_remaining (l : AttrList) (d : Dev) :
    (AttrList.next (l, d)).2.1.remaining ≤ l.remaining := by
  cases l with
  | resident b pos =>
    rw [C24_arbitrary_resident]
    repeat' split
    all_goals simp only [AttrList.remaining, List.length_drop]
    all_goals omega
  | nonResident v =>
    simp only [AttrList.next, AttrList.nextNonResident]
    by_cases h0 : v.streamPosition ≥ v.len
    · rw [if_pos h0]; exact Nat.le_refl _
    rw [if_neg h0]
    cases hn : ListEntry.new NonRes.readExactAttached v.dataPosition (v, d) with
    | mk r s =>
    obtain ⟨v1, d1⟩ := s
    cases r with
    | err e => exact Nat.le_refl _
    | panic p => exact Nat.le_refl _
    | diverge => exact Nat.le_refl _
    | ok e1 =>
      dsimp only
      have hk := v.seek_forward_keeps e1.length
      cases hs : v.seek (.current (e1.length : Int)) with
      | mk r2 v2 =>
      rw [hs] at hk
      dsimp only at hk
      cases r2 <;>
        · simp only [AttrList.remaining, NonRes.len, NonRes.streamPosition]
          omega

/-- C24: the number of entries that any number of calls can return is bounded by the size of the
list, so every loop over the entries that stops at the end or at an error ends. -/
theorem C24_few_entries (n : Nat) (l : AttrList) (d : Dev) :
    26 * ((AttrList.calls n (l, d)).filter
      (fun r => match r with | .ok (some _) => true | _ => false)).length ≤ l.remaining + 25 := by
  induction n generalizing l d with
  | zero => simp [AttrList.calls]
  | succ n ih =>
    simp only [AttrList.calls, List.filter_cons]
    have hle := AttrList.next_remaining l d
    cases h : AttrList.next (l, d) with
    | mk r s =>
    obtain ⟨l', d'⟩ := s
    rw [h] at hle
    dsimp only at hle ⊢
    have := ih l' d'
    rcases r with (_ | e) | x | p | _
    case ok.some =>
      obtain ⟨g1, g2, g3⟩ := C24_progress l l' d d' e h
      simp only [if_true, List.length_cons]
      omega
    all_goals simp only [Bool.false_eq_true, if_false]
    all_goals omega

/-- C24: the iterator over a resident list never panics and never hangs, whatever the bytes. -/
theorem C24_no_panic_resident (b : Bytes) (pos : Pos) (d : Dev) :
    (AttrList.next (.resident b pos, d)).1.Safe := by
  rw [C24_arbitrary_resident]
  repeat' split
  all_goals first | exact trivial | simp [Res.Safe]

theorem NonRes.readExactAttached_safe (v : NonRes) (hb : v.Bounded) (n : Nat) (d : Dev) :
    (NonRes.readExactAttached n (v, d)).1.Safe ∧ (NonRes.readExactAttached n (v, d)).2.1.Bounded ∧
      ∀ x, (NonRes.readExactAttached n (v, d)).1 = .ok x → x.length = n := by
  have h := NonRes.readExact_safe v hb (List.replicate n 0) d
  simp only [NonRes.readExactAttached]
  cases hr : v.readExact (List.replicate n 0) d with
  | mk r s =>
  obtain ⟨s, buf⟩ := s
  rw [hr] at h
  dsimp only at h
  obtain ⟨h1, h2, h3⟩ := h
  rw [List.length_replicate] at h3
  rcases r with u | e | p | _ <;> dsimp only
  · exact ⟨trivial, h2, fun x hx => by cases hx; exact h3⟩
  · exact ⟨trivial, h2, fun x hx => by cases hx⟩
  · exact ⟨h1, h2, fun x hx => by cases hx⟩
  · exact ⟨h1, h2, fun x hx => by cases hx⟩

theorem ListEntry.new_safe (v : NonRes) (hb : v.Bounded) (pos : Pos) (d : Dev) :
    (ListEntry.new NonRes.readExactAttached pos (v, d)).1.Safe ∧
      ∀ e, (ListEntry.new NonRes.readExactAttached pos (v, d)).1 = .ok e → e.length < U16 := by
  unfold ListEntry.new
  rw [StM.bind_apply]
  obtain ⟨h1, h2, h3⟩ := v.readExactAttached_safe hb 26 d
  generalize NonRes.readExactAttached 26 (v, d) = q at h1 h2 h3
  obtain ⟨r, v1, d1⟩ := q
  dsimp only at h1 h2 h3
  rcases r with b | e | p | _
  · dsimp only
    rw [StM.bind_apply, StM.lift_apply]
    have hl := h3 b rfl
    have he := ofHeader_eq b pos (by omega)
    rw [List.take_of_length_le (by omega)] at he
    rw [he]
    dsimp only
    rw [StM.bind_apply, StM.lift_apply]
    obtain ⟨e0, he0⟩ : ∃ e0, e0 = ({ entryAt b pos with name := [] } : ListEntry) := ⟨_, rfl⟩
    have hlen : e0.length < U16 := by
      rw [he0]
      exact field_lt (d := b) (a := 4) (n := 2) (by omega)
    rw [← he0]
    unfold ListEntry.validate
    by_cases hv : 26 + e0.nameLength > e0.length
    · rw [if_pos hv]
      exact ⟨trivial, fun e h => by cases h⟩
    · rw [if_neg hv]
      dsimp only
      rw [StM.bind_apply]
      obtain ⟨g1, _, _⟩ := v1.readExactAttached_safe h2 e0.nameLength d1
      generalize NonRes.readExactAttached _ (v1, d1) = q at g1
      obtain ⟨r, s2⟩ := q
      rcases r with nm | e | p | _
      · refine ⟨trivial, fun e h => ?_⟩
        rw [he0] at hlen
        cases h
        exact hlen
      · exact ⟨trivial, fun e h => by cases h⟩
      · exact g1.elim
      · exact g1.elim
  · exact ⟨trivial, fun e h => by cases h⟩
  · exact h1.elim
  · exact h1.elim

/-- C24: the iterator over a non-resident list never panics and never hangs, whatever the bytes of the
list and whatever the device does, as long as the data runs of the list end below 2^64 (see C49); and
this condition is kept. -/
theorem C24_no_panic_non_resident (v : NonRes) (hb : v.Bounded) (d : Dev) :
    (AttrList.next (.nonResident v, d)).1.Safe ∧
      ∃ v', (AttrList.next (.nonResident v, d)).2.1 = .nonResident v' ∧ v'.Bounded := by
  simp only [AttrList.next, AttrList.nextNonResident]
  by_cases h0 : v.streamPosition ≥ v.len
  · rw [if_pos h0]; exact ⟨trivial, v, rfl, hb⟩
  rw [if_neg h0]
  obtain ⟨n1, n2⟩ := ListEntry.new_safe v hb v.dataPosition d
  cases hn : ListEntry.new NonRes.readExactAttached v.dataPosition (v, d) with
  | mk r s =>
  obtain ⟨v1, d1⟩ := s
  rw [hn] at n1 n2
  rcases r with e1 | e | p | _
  · have hlt := n2 e1 rfl
    have hs := v.step_bounded d (.seek (.current (e1.length : Int)))
      (by
        simp only [Op.InRange, SeekFrom.InRange]
        have : U16 < I63 := by decide
        omega) hb
    simp only [NonRes.step] at hs
    dsimp only
    cases hk : v.seek (.current (e1.length : Int)) with
    | mk r2 v2 =>
    rw [hk] at hs
    rcases r2 with a | e | p | _
    · exact ⟨trivial, v2, rfl, hs.2⟩
    · exact ⟨trivial, v2, rfl, hs.2⟩
    · exact hs.1.elim
    · exact hs.1.elim
  · exact ⟨trivial, v, rfl, hb⟩
  · exact n1.elim
  · exact n1.elim

/-- A list of two entries, the first with the name "ab" and two bytes of padding. -/
def exList : Bytes :=
  [0x80, 0, 0, 0, 32, 0, 2, 26, 0, 0, 0, 0, 0, 0, 0, 0, 9, 0, 0, 0, 0, 0, 3, 0, 5, 0,
    97, 0, 98, 0, 0xEE, 0xEE,
   0xA0, 0, 0, 0, 26, 0, 0, 26, 0xFF, 0xFF, 0xFF, 0xFF, 0xFF, 0xFF, 0xFF, 0xFF,
    10, 0, 0, 0, 0, 0, 3, 0, 6, 0]

theorem exList_encodes : ListEncodes
    [⟨0x80, 0, 9 + 3 * 2 ^ 48, 5, [97, 98]⟩, ⟨0xA0, -1, 10 + 3 * 2 ^ 48, 6, []⟩] exList := by
  have h2 := ListEncodes.cons ⟨0xA0, -1, 10 + 3 * 2 ^ 48, 6, []⟩ [] [] []
    ⟨by decide, by decide, by decide, by decide, by decide, by decide⟩ (by decide) .nil
  have h1 := ListEncodes.cons ⟨0x80, 0, 9 + 3 * 2 ^ 48, 5, [97, 98]⟩ [0xEE, 0xEE] _ _
    ⟨by decide, by decide, by decide, by decide, by decide, by decide⟩ (by decide) h2
  exact h1

/-- `C24_resident` applies. -/
example : ListEncodes
      [⟨0x80, 0, 9 + 3 * 2 ^ 48, 5, [97, 98]⟩, ⟨0xA0, -1, 10 + 3 * 2 ^ 48, 6, []⟩] exList ∧
    (AttrList.calls 3 (.resident exList (some 64), ⟨[], 0, []⟩)).map
      (fun r => match r with | .ok (some e) => some (e.inst, e.position) | _ => none) =
      [some (5, some 64), some (6, some 96), none] :=
  ⟨exList_encodes, by decide⟩

/-- `C24_non_resident` applies: the same list stored in two runs. -/
example : ∃ img, StoredAs 32 img [0x11, 1, 2, 0x11, 1, 2, 0] [⟨1, some 2⟩, ⟨1, some 4⟩] ∧
    ListEncodes [⟨0x80, 0, 9 + 3 * 2 ^ 48, 5, [97, 98]⟩, ⟨0xA0, -1, 10 + 3 * 2 ^ 48, 6, []⟩]
      ((content 32 img [⟨1, some 2⟩, ⟨1, some 4⟩]).take 58) := by
  refine ⟨List.replicate 64 0 ++ exList.take 32 ++ List.replicate 32 7 ++ exList.drop 32 ++
    List.replicate 6 1, ⟨by decide, ?_, by simp [Representable], by simp [NonZero, Extent.lcnAfter],
      by simp [InImage, exList], by simp [exList]⟩, ?_⟩
  · refine .run 0 1 1 _ _ _ ?_ (.run _ 1 1 _ _ _ ?_ (.terminated _ []))
    · simp [WidthsOk, FitsSigned]
    · simp [WidthsOk, FitsSigned, Extent.lcnAfter]
  · have : (content 32 (List.replicate 64 0 ++ exList.take 32 ++ List.replicate 32 7 ++
        exList.drop 32 ++ List.replicate 6 1) [⟨1, some 2⟩, ⟨1, some 4⟩]).take 58 = exList := by
      decide
    rw [this]
    exact exList_encodes

/-- `C24_progress` is not void: an arbitrary, ill-formed list yields an entry, consumes it, and then
stops at the overlong one. -/
example : (AttrList.calls 2 (.resident (exList.take 32 ++ [1, 0, 0, 0, 200] ++ List.replicate 40 0) none,
      ⟨[], 0, []⟩)).map (fun r => match r with | .ok (some e) => e.length | .ok none => 1 | _ => 0) =
      [32, 1] := by decide

/-- `C24_no_panic_non_resident` on a value whose only run is a hole, while the device fails. -/
example := C24_no_panic_non_resident ⟨4, [], none, DataRuns.new 4 [] none, ⟨some ⟨none, 64, 0⟩, 0, 60⟩⟩
  { data := rfl, cs := rfl, lcn := by decide, posLt := by decide, sizeLt := by decide
    ahead := by
      intro n x p h
      have : ∀ n, (DataRuns.new 4 [] none).after n = DataRuns.new 4 [] none := by
        intro n; induction n with
        | zero => rfl
        | succ n ih => exact ih
      rw [this n] at h
      cases h
    fresh := by
      intro n x p h
      have : ∀ n, (DataRuns.new 4 [] none).after n = DataRuns.new 4 [] none := by
        intro n; induction n with
        | zero => rfl
        | succ n ih => exact ih
      have h : ((DataRuns.new 4 [] none).after n).next.1 = some (.ok x) := h
      rw [this n] at h
      cases h
    cur := by rintro r p ⟨⟩ ⟨⟩ }
  ⟨[], 0, [.fail (.other 3)]⟩

end NT
