import Verif.Lemmas.DataRuns

namespace NT

open Spec

/-- What a user sees who calls `next` on the iterator `n` times. -/
def DataRuns.calls : Nat → DataRuns → List (Option (Res DataRun))
  | 0, _ => []
  | n + 1, r => r.next.1 :: DataRuns.calls n r.next.2

/-- The iterator after `n` calls of `next`. -/
def DataRuns.after : Nat → DataRuns → DataRuns
  | 0, r => r
  | n + 1, r => DataRuns.after n r.next.2

/-- C09: one call of `next` on an arbitrary byte string, exactly. `h` is the header byte, `c` the bytes
after it. Illegal widths, zero or too large counts, truncated fields and LCNs out of range are
rejected; everything else is a run. -/
theorem C09_exact (r : DataRuns) (h : UInt8) (c : Bytes)
    (hd : r.data.drop r.state.offset = h :: c) (hp : r.state.previousLcn < U64)
    (cb lb count off' : Nat) (delta lcn : Int)
    (ecb : cb = h.toNat % 16) (elb : lb = h.toNat / 16)
    (ecount : count = leNat (c.take cb)) (edelta : delta = signedLE ((c.drop cb).take lb))
    (elcn : lcn = (r.state.previousLcn : Int) + delta) (eoff : off' = r.state.offset + 1 + cb + lb) :
    r.next =
      if h = 0 then (none, { r with state := { r.state with offset := r.data.length } })
      else if 8 < cb then (some (.err (.invalidByteCountInDataRunHeader r.pos cb 8)), r)
      else if c.length < cb then (some (.err (.io .unexpectedEof)), r)
      else if count = 0 ∨ U64 ≤ count * r.clusterSize then
        (some (.err (.invalidClusterCountInDataRunHeader r.pos count)), r)
      else if 8 < lb then (some (.err (.invalidByteCountInDataRunHeader r.pos lb 8)), r)
      else if c.length < cb + lb then (some (.err (.io .unexpectedEof)), r)
      else if delta = 0 then
        (some (.ok ⟨none, count * r.clusterSize, 0⟩),
          { r with state := { r.state with offset := off' } })
      else if lcn < 0 ∨ U64 ≤ lcn then
        (some (.err (.invalidVcnInDataRunHeader r.pos delta r.state.previousLcn)), r)
      else if U64 ≤ lcn.toNat * r.clusterSize then
        (some (.err (.lcnTooBig lcn.toNat)), { r with state := { r.state with previousLcn := lcn.toNat } })
      else
        (some (.ok ⟨if lcn.toNat * r.clusterSize = 0 then none else some (lcn.toNat * r.clusterSize),
            count * r.clusterSize, 0⟩),
          { r with state := ⟨off', lcn.toNat⟩ }) := by
  unfold DataRuns.next
  rw [hd]
  dsimp only
  rw [← ecb, ← elb]
  by_cases h0 : h = 0
  · rw [if_pos h0, if_pos h0]
  rw [if_neg h0, if_neg h0]
  unfold DataRuns.readVarUnsigned DataRuns.readVarSigned DataRuns.readVarBytes
  by_cases h1 : 8 < cb
  · rw [if_pos h1, if_pos h1]; rfl
  rw [if_neg h1, if_neg h1]
  by_cases h2 : c.length < cb
  · rw [if_pos h2, if_neg (by omega : ¬ cb ≤ c.length)]; rfl
  rw [if_neg h2, if_pos (by omega : cb ≤ c.length)]
  simp only [Res.bind_ok, Res.pure_eq]
  rw [← ecount]
  by_cases h3 : count = 0
  · rw [if_pos h3, if_pos (.inl h3)]
  rw [if_neg h3]
  by_cases h4 : U64 ≤ count * r.clusterSize
  · have : checkedMulU64 count r.clusterSize = none := if_neg (by omega)
    rw [this, if_pos (Or.inr h4 : count = 0 ∨ _)]
  have : checkedMulU64 count r.clusterSize = some (count * r.clusterSize) := if_pos (by omega)
  rw [this, if_neg (by omega : ¬ (count = 0 ∨ U64 ≤ count * r.clusterSize))]
  dsimp only
  by_cases h5 : 8 < lb
  · rw [if_pos h5, if_pos h5]; rfl
  rw [if_neg h5, if_neg h5]
  by_cases h6 : c.length < cb + lb
  · rw [if_pos h6, if_neg (by rw [List.length_drop]; omega)]; rfl
  rw [if_neg h6, if_pos (by rw [List.length_drop]; omega)]
  simp only [Res.bind_ok]
  have hl : ((c.drop cb).take lb).length = lb := by simp; omega
  have hdelta : signExtend lb (leNat ((c.drop cb).take lb)) = delta := by
    rw [signExtend_eq lb _ (by omega) (leNat_lt_of_length hl)]
    simp only [edelta, signedLE, hl]
  rw [hdelta]
  have hoff : r.state.offset + (1 + c.length - ((c.drop cb).drop lb).length) = off' := by
    simp only [List.length_drop]; omega
  rw [hoff]
  by_cases h7 : delta = 0
  · rw [if_neg (by simpa using h7), if_pos h7]; rfl
  rw [if_pos h7, if_neg h7]
  have hadd : Lcn.checkedAdd r.state.previousLcn delta =
      if lcn < 0 ∨ U64 ≤ lcn then none else some lcn.toNat := by
    unfold Lcn.checkedAdd checkedAddU64 checkedSub negAsU64
    by_cases hp : 0 ≤ delta
    · rw [if_pos hp]
      by_cases hq : U64 ≤ lcn
      · rw [if_neg (by omega), if_pos (Or.inr hq)]
      · rw [if_pos (by omega), if_neg (by omega)]; congr 1; omega
    · rw [if_neg hp]
      by_cases hq : lcn < 0
      · rw [if_neg (by omega), if_pos (Or.inl hq)]
      · rw [if_pos (by omega), if_neg (by omega)]; congr 1; omega
  rw [hadd]
  by_cases h8 : lcn < 0 ∨ U64 ≤ lcn
  · rw [if_pos h8, if_pos h8]
  rw [if_neg h8, if_neg h8]
  dsimp only
  unfold Lcn.position
  by_cases h9 : U64 ≤ lcn.toNat * r.clusterSize
  · rw [if_pos h9]
    have : checkedMulU64 lcn.toNat r.clusterSize = none := if_neg (by omega)
    rw [this]
  rw [if_neg h9]
  have : checkedMulU64 lcn.toNat r.clusterSize = some (lcn.toNat * r.clusterSize) :=
    if_pos (by omega)
  rw [this]
  rfl


/-- The exact outcome at the end of the byte string. -/
theorem C09_exact_at_end (r : DataRuns) (hd : r.data.drop r.state.offset = []) :
    r.next = (none, r) := by
  simp [DataRuns.next, hd]

/-- Summary of `C09_exact`: the possible outcomes of one call. -/
theorem DataRuns.next_cases (r : DataRuns) (hp : r.state.previousLcn < U64) :
    (∃ r', r.next = (none, r') ∧ r'.data.length ≤ r'.state.offset ∧
      r' = { r with state := r'.state } ∧ r'.state.previousLcn = r.state.previousLcn) ∨
    (∃ e, r.next = (some (.err e), r)) ∨
    (∃ lcn, r.next = (some (.err (.lcnTooBig lcn)),
      { r with state := { r.state with previousLcn := lcn } }) ∧
      lcn < U64 ∧ U64 ≤ lcn * r.clusterSize) ∨
    (∃ x off' lcn, r.next = (some (.ok x), { r with state := ⟨off', lcn⟩ }) ∧
      r.state.offset + 2 ≤ off' ∧ off' ≤ r.data.length ∧ lcn < U64 ∧
      (lcn = r.state.previousLcn ∨ lcn * r.clusterSize < U64) ∧
      x.streamPosition = 0 ∧ x.allocatedSize < U64 ∧ r.clusterSize ≤ x.allocatedSize ∧
      ∀ p, x.position = some p → p < U64 ∧ 0 < p) := by
  cases hd : r.data.drop r.state.offset with
  | nil =>
    left
    refine ⟨r, C09_exact_at_end r hd, List.drop_eq_nil_iff.1 hd, rfl, rfl⟩
  | cons h c =>
    obtain ⟨cb, ecb⟩ : ∃ cb, cb = h.toNat % 16 := ⟨_, rfl⟩
    obtain ⟨lb, elb⟩ : ∃ lb, lb = h.toNat / 16 := ⟨_, rfl⟩
    obtain ⟨count, ecount⟩ : ∃ n, n = leNat (c.take cb) := ⟨_, rfl⟩
    obtain ⟨delta, edelta⟩ : ∃ z, z = signedLE ((c.drop cb).take lb) := ⟨_, rfl⟩
    obtain ⟨lcn, elcn⟩ : ∃ z, z = (r.state.previousLcn : Int) + delta := ⟨_, rfl⟩
    have hx := C09_exact r h c hd hp cb lb count _ delta lcn ecb elb ecount edelta elcn rfl
    have hlen : r.data.length = r.state.offset + 1 + c.length := by
      have := congrArg List.length hd
      simp at this; omega
    have hcb : count ≠ 0 → cb ≠ 0 := by
      intro hz hc
      apply hz
      simp only [ecount, hc, List.take_zero, leNat]
    by_cases h0 : h = 0
    · rw [if_pos h0] at hx
      exact .inl ⟨_, hx, Nat.le_refl _, rfl, rfl⟩
    rw [if_neg h0] at hx
    by_cases h1 : 8 < cb
    · rw [if_pos h1] at hx; exact .inr (.inl ⟨_, hx⟩)
    rw [if_neg h1] at hx
    by_cases h2 : c.length < cb
    · rw [if_pos h2] at hx; exact .inr (.inl ⟨_, hx⟩)
    rw [if_neg h2] at hx
    by_cases h3 : count = 0 ∨ U64 ≤ count * r.clusterSize
    · rw [if_pos h3] at hx; exact .inr (.inl ⟨_, hx⟩)
    rw [if_neg h3] at hx
    have hcb := hcb (by omega)
    have hle : r.clusterSize ≤ count * r.clusterSize := Nat.le_mul_of_pos_left _ (by omega)
    by_cases h4 : 8 < lb
    · rw [if_pos h4] at hx; exact .inr (.inl ⟨_, hx⟩)
    rw [if_neg h4] at hx
    by_cases h5 : c.length < cb + lb
    · rw [if_pos h5] at hx; exact .inr (.inl ⟨_, hx⟩)
    rw [if_neg h5] at hx
    by_cases h6 : delta = 0
    · rw [if_pos h6] at hx
      refine .inr (.inr (.inr ⟨_, _, _, hx, by omega, by omega, hp, .inl rfl, rfl,
        by dsimp only; omega, hle, ?_⟩))
      intro p hp; cases hp
    rw [if_neg h6] at hx
    by_cases h7 : lcn < 0 ∨ U64 ≤ lcn
    · rw [if_pos h7] at hx; exact .inr (.inl ⟨_, hx⟩)
    rw [if_neg h7] at hx
    by_cases h8 : U64 ≤ lcn.toNat * r.clusterSize
    · rw [if_pos h8] at hx
      exact .inr (.inr (.inl ⟨_, hx, by omega, h8⟩))
    rw [if_neg h8] at hx
    refine .inr (.inr (.inr ⟨_, _, _, hx, by omega, by omega, by omega, .inr (by omega), rfl,
        by dsimp only; omega, hle, ?_⟩))
    intro p hp
    dsimp only at hp
    split at hp
    · cases hp
    · injection hp with hp; omega

/-- C09: `next` never panics and always returns. -/
theorem C09_no_panic (r : DataRuns) (hp : r.state.previousLcn < U64) :
    ∀ x, r.next.1 = some x → x.Safe := by
  intro x hx
  rcases r.next_cases hp with ⟨_, h, _⟩ | ⟨_, h⟩ | ⟨_, h, _⟩ | ⟨_, _, _, h, _⟩ <;>
    rw [h] at hx <;> cases hx <;> trivial

/-- C09: every run consumes at least two bytes, stays within the data, and is not empty. -/
theorem C09_progress (r r' : DataRuns) (x : DataRun) (hp : r.state.previousLcn < U64)
    (h : r.next = (some (.ok x), r')) :
    r.state.offset + 2 ≤ r'.state.offset ∧ r'.state.offset ≤ r.data.length ∧ r'.data = r.data ∧
      r.clusterSize ≤ x.allocatedSize ∧ x.allocatedSize < U64 ∧ x.streamPosition = 0 ∧
      r'.state.previousLcn < U64 := by
  rcases r.next_cases hp with ⟨_, h', _⟩ | ⟨_, h'⟩ | ⟨_, h', _⟩ | ⟨y, o, l, h', h1, h2, h3, h4, h5, h6,
      h7, h8⟩ <;> rw [h'] at h <;> cases h
  exact ⟨h1, h2, rfl, h7, h6, h5, h3⟩

theorem DataRuns.next_data (r : DataRuns) (hp : r.state.previousLcn < U64) :
    r.next.2.data = r.data ∧ r.next.2.clusterSize = r.clusterSize ∧
      r.next.2.state.previousLcn < U64 := by
  rcases r.next_cases hp with ⟨r', h, _, h2, h3⟩ | ⟨_, h⟩ | ⟨_, h, h2, _⟩ | ⟨_, _, _, h, _, _, h3, _⟩ <;>
    rw [h] <;> dsimp only
  · rw [h2]; exact ⟨rfl, rfl, by dsimp only; omega⟩
  · exact ⟨rfl, rfl, hp⟩
  · exact ⟨rfl, rfl, h2⟩
  · exact ⟨rfl, rfl, h3⟩

/-- C09: once ended, the iterator stays ended. -/
theorem C09_ended_stays_ended (r : DataRuns) (hp : r.state.previousLcn < U64)
    (h : r.next.1 = none) (n : Nat) : r.next.2.calls n = List.replicate n none := by
  rcases r.next_cases hp with ⟨r', h', h2, _⟩ | ⟨_, h'⟩ | ⟨_, h', _⟩ | ⟨_, _, _, h', _⟩ <;>
    rw [h'] at h ⊢ <;> cases h
  have key := C09_exact_at_end r' (List.drop_eq_nil_iff.2 h2)
  dsimp only
  induction n with
  | zero => rfl
  | succ n ih => simp only [DataRuns.calls, key, List.replicate_succ, ih]

/-- C09: however often `next` is called, at most `len / 2` runs come out of `len` bytes. -/
theorem C09_few_runs (r : DataRuns) (hp : r.state.previousLcn < U64) (n : Nat) :
    2 * ((r.calls n).filter (fun x => match x with | some (.ok _) => true | _ => false)).length ≤
      r.data.length - r.state.offset := by
  induction n generalizing r with
  | zero => simp [DataRuns.calls]
  | succ n ih =>
    have hdata := r.next_data hp
    have ih := ih r.next.2 hdata.2.2
    rcases r.next_cases hp with ⟨r', h', h2, h3, _⟩ | ⟨_, h'⟩ | ⟨_, h', _⟩ | ⟨_, _, _, h', h2, h3, _⟩ <;>
      simp only [DataRuns.calls, h', List.filter_cons] at ih ⊢
    · simp only [Bool.false_eq_true, if_false]
      omega
    · simpa using ih
    · simpa using ih
    · simp only [if_true, List.length_cons]
      omega

/-- C09: after at most `len / 2` runs the iterator ends or reports an error. -/
theorem C09_terminates (r : DataRuns) (hp : r.state.previousLcn < U64) :
    ∃ k ≤ r.data.length / 2, (r.after k).next.1 = none ∨ ∃ e, (r.after k).next.1 = some (.err e) := by
  suffices h : ∀ (m : Nat) (r : DataRuns), r.state.previousLcn < U64 →
      (r.data.length - r.state.offset) / 2 ≤ m →
      ∃ k ≤ m, (r.after k).next.1 = none ∨ ∃ e, (r.after k).next.1 = some (.err e) from
    h _ r hp (by omega)
  intro m
  induction m with
  | zero =>
    intro r hp hm
    refine ⟨0, Nat.le_refl _, ?_⟩
    rcases r.next_cases hp with ⟨r', h', _⟩ | ⟨e, h'⟩ | ⟨e, h', _⟩ | ⟨_, _, _, h', h2, h3, _⟩
    · left; simp only [DataRuns.after, h']
    · right; exact ⟨_, by simp only [DataRuns.after, h']; rfl⟩
    · right; exact ⟨_, by simp only [DataRuns.after, h']; rfl⟩
    · omega
  | succ m ih =>
    intro r hp hm
    rcases r.next_cases hp with ⟨r', h', _⟩ | ⟨_, h'⟩ | ⟨_, h', _⟩ | ⟨_, _, _, h', h2, h3, h4, _⟩
    · exact ⟨0, by omega, .inl (by simp only [DataRuns.after, h'])⟩
    · exact ⟨0, by omega, .inr ⟨_, by simp only [DataRuns.after, h']; rfl⟩⟩
    · exact ⟨0, by omega, .inr ⟨_, by simp only [DataRuns.after, h']; rfl⟩⟩
    · obtain ⟨k, hk, hr⟩ := ih r.next.2 (by rw [h']; exact h4) (by rw [h']; dsimp only; omega)
      exact ⟨k + 1, by omega, hr⟩

/-- A malformed byte string: width 9 in the header. -/
example : (DataRuns.new 4096 [0x19, 1, 2, 3] (some 100)).next.1 =
    some (.err (.invalidByteCountInDataRunHeader (some 100) 9 8)) := by decide

theorem calls_yields (r : DataRuns) (xs : List DataRun) (h : Yields r xs) (n : Nat)
    (hp : r.state.previousLcn < U64) :
    r.calls (xs.length + n) = xs.map (fun x => some (.ok x)) ++ List.replicate n none := by
  induction h with
  | @done r r' h =>
    simp only [List.length_nil, Nat.zero_add, List.map_nil, List.nil_append]
    cases n with
    | zero => rfl
    | succ n =>
      have := C09_ended_stays_ended r hp (by rw [h]) n
      rw [h] at this
      simp only [DataRuns.calls, h, List.replicate_succ, this]
  | @step r r' x xs h _ ih =>
    have hq := C09_progress r r' x hp h
    have e : (x :: xs).length + n = xs.length + n + 1 := by simp; omega
    rw [e]
    simp only [DataRuns.calls, h, ih hq.2.2.2.2.2.2, List.map_cons, List.cons_append]

/-- C08: iterating over the encoding of any list of extents yields those extents in order, with
their byte addresses and sizes, and then nothing, however often `next` is called. Runs at LCN 0 and
runs with delta 0 are excluded (`NonZero`); see C11 for them. -/
theorem C08_roundtrip (cs : Nat) (data : Bytes) (p : Pos) (es : List Extent)
    (henc : Encodes 0 es data) (hcs : 0 < cs) (hrep : ∀ e ∈ es, Representable cs e)
    (hnz : NonZero 0 es) (n : Nat) :
    (DataRuns.new cs data p).calls (es.length + n) =
      es.map (fun e => some (.ok
        { position := e.lcn.map (· * cs), allocatedSize := e.count * cs, streamPosition := 0 })) ++
      List.replicate n none := by
  have hy := yields_encoded (DataRuns.new cs data p) es (by simpa [DataRuns.new] using henc) hcs hrep
    hnz
  have := calls_yields _ _ hy n (by simp [DataRuns.new])
  rw [List.length_map] at this
  rw [this, List.map_map]
  congr 1
  apply List.map_congr_left
  intro e _
  rcases e with ⟨c, _ | l⟩ <;> rfl

/-- An encoding with a stored run of 3 clusters at LCN 1000, a sparse run of 2 clusters, and a run of
300 clusters at LCN 990 (negative delta), with different widths and trailing bytes. -/
theorem exampleEncodes : Encodes 0 [⟨3, some 1000⟩, ⟨2, none⟩, ⟨300, some 990⟩]
    [0x21, 3, 0xE8, 3, 0x02, 2, 0, 0x12, 0x2C, 1, 0xF6, 0, 77] := by
  refine .run 0 1 2 _ _ _ ?_ (.run _ 2 0 _ _ _ ?_ (.run _ 2 1 _ _ _ ?_ (.terminated _ [77])))
  · simp [WidthsOk, FitsSigned]
  · simp [WidthsOk]
  · simp [WidthsOk, FitsSigned, Extent.lcnAfter]

example : (∀ e ∈ [(⟨3, some 1000⟩ : Extent), ⟨2, none⟩, ⟨300, some 990⟩], Representable 4096 e) ∧
    NonZero 0 [⟨3, some 1000⟩, ⟨2, none⟩, ⟨300, some 990⟩] := by
  simp [Representable, NonZero, Extent.lcnAfter]

theorem signedLE_fits (b : Bytes) : FitsSigned b.length (signedLE b) := by
  have h := leNat_lt b
  have h3 : (256 : Int) ^ b.length = ((256 ^ b.length : Nat) : Int) := by simp
  unfold FitsSigned signedLE
  split <;> omega

theorem sleBytes_signedLE (b : Bytes) : sleBytes b.length (signedLE b) = b := by
  have h := leNat_lt b
  have h3 : (256 : Int) ^ b.length = ((256 ^ b.length : Nat) : Int) := by simp
  have hm : (signedLE b % (256 : Int) ^ b.length).toNat = leNat b := by
    unfold signedLE
    split
    · rw [Int.emod_eq_of_lt (by omega) (by omega)]; omega
    · rw [Int.sub_emod_right, Int.emod_eq_of_lt (by omega) (by omega)]; omega
  unfold sleBytes
  rw [hm, leBytes_leNat]

/-- C08, converse: whatever `next` accepts as a stored run is the encoding of exactly that
extent. -/
theorem C08_only_encodings (r r' : DataRuns) (x : DataRun) (a : Nat)
    (hp : r.state.previousLcn < U64)
    (h : r.next = (some (.ok x), r')) (hx : x.position = some a) :
    ∃ cb lb count lcn rest,
      r.data.drop r.state.offset = encodeRun cb lb r.state.previousLcn ⟨count, some lcn⟩ ++ rest ∧
      WidthsOk cb lb r.state.previousLcn ⟨count, some lcn⟩ ∧ a = lcn * r.clusterSize ∧
      x.allocatedSize = count * r.clusterSize ∧
      r'.state = ⟨r.state.offset + 1 + cb + lb, lcn⟩ := by
  cases hd : r.data.drop r.state.offset with
  | nil => rw [C09_exact_at_end r hd] at h; cases h
  | cons hb c =>
    obtain ⟨cb, ecb⟩ : ∃ cb, cb = hb.toNat % 16 := ⟨_, rfl⟩
    obtain ⟨lb, elb⟩ : ∃ lb, lb = hb.toNat / 16 := ⟨_, rfl⟩
    obtain ⟨count, ecount⟩ : ∃ n, n = leNat (c.take cb) := ⟨_, rfl⟩
    obtain ⟨delta, edelta⟩ : ∃ z, z = signedLE ((c.drop cb).take lb) := ⟨_, rfl⟩
    obtain ⟨lcn, elcn⟩ : ∃ z, z = (r.state.previousLcn : Int) + delta := ⟨_, rfl⟩
    have hn := C09_exact r hb c hd hp cb lb count _ delta lcn ecb elb ecount edelta elcn rfl
    rw [h] at hn
    by_cases h0 : hb = 0
    · rw [if_pos h0] at hn; cases hn
    rw [if_neg h0] at hn
    by_cases h1 : 8 < cb
    · rw [if_pos h1] at hn; cases hn
    rw [if_neg h1] at hn
    by_cases h2 : c.length < cb
    · rw [if_pos h2] at hn; cases hn
    rw [if_neg h2] at hn
    by_cases h3 : count = 0 ∨ U64 ≤ count * r.clusterSize
    · rw [if_pos h3] at hn; cases hn
    rw [if_neg h3] at hn
    by_cases h4 : 8 < lb
    · rw [if_pos h4] at hn; cases hn
    rw [if_neg h4] at hn
    by_cases h5 : c.length < cb + lb
    · rw [if_pos h5] at hn; cases hn
    rw [if_neg h5] at hn
    by_cases h6 : delta = 0
    · rw [if_pos h6] at hn; cases hn; cases hx
    rw [if_neg h6] at hn
    by_cases h7 : lcn < 0 ∨ U64 ≤ lcn
    · rw [if_pos h7] at hn; cases hn
    rw [if_neg h7] at hn
    by_cases h8 : U64 ≤ lcn.toNat * r.clusterSize
    · rw [if_pos h8] at hn; cases hn
    rw [if_neg h8] at hn
    cases hn
    dsimp only at hx
    have hl1 : (c.take cb).length = cb := by simp; omega
    have hl2 : ((c.drop cb).take lb).length = lb := by simp; omega
    have hcb0 : cb ≠ 0 := by
      intro hz; subst hz; simp [leNat] at ecount; omega
    have hlb0 : lb ≠ 0 := by
      intro hz; subst hz; simp [signedLE, leNat] at edelta; omega
    refine ⟨cb, lb, count, lcn.toNat, (c.drop cb).drop lb, ?_, ?_, ?_, rfl, ?_⟩
    · have e1 : ((lcn.toNat : Nat) : Int) - r.state.previousLcn = delta := by omega
      have e2 : UInt8.ofNat (16 * lb + cb) = hb := by
        apply UInt8.toNat_inj.1
        have := hb.toNat_lt
        simp; omega
      have e3 : leBytes cb count = c.take cb := by
        rw [ecount]
        have := leBytes_leNat (c.take cb)
        rwa [hl1] at this
      have e4 : sleBytes lb delta = (c.drop cb).take lb := by
        rw [edelta]
        have := sleBytes_signedLE ((c.drop cb).take lb)
        rwa [hl2] at this
      simp only [encodeRun, e1, e2, e3, e4]
      rw [List.cons_append, List.append_assoc, List.take_append_drop, List.take_append_drop]
    · have hcl : count < 256 ^ cb := by rw [ecount]; exact leNat_lt_of_length hl1
      refine ⟨by omega, by omega, by dsimp only; omega, hcl, by omega, by omega, ?_⟩
      have e1 : ((lcn.toNat : Nat) : Int) - r.state.previousLcn = delta := by omega
      rw [e1, edelta]
      have := signedLE_fits ((c.drop cb).take lb)
      rwa [hl2] at this
    · split at hx
      · cases hx
      · injection hx with hx; omega
    · rfl

example : (DataRuns.new 4096 [0x21, 3, 0xE8, 3] none).next.1 =
    some (.ok ⟨some (1000 * 4096), 3 * 4096, 0⟩) := by decide

/-- C10, all errors but `LcnTooBig`: the iterator does not change, so the next call reports the same
error again, and so on. -/
theorem C10_same_error_partial (r r' : DataRuns) (e : Err) (hp : r.state.previousLcn < U64)
    (h : r.next = (some (.err e), r')) (hne : ∀ lcn, e ≠ .lcnTooBig lcn) (n : Nat) :
    r'.calls n = List.replicate n (some (.err e)) := by
  have : r' = r := by
    rcases r.next_cases hp with ⟨_, h', _⟩ | ⟨_, h'⟩ | ⟨l, h', _⟩ | ⟨_, _, _, h', _⟩ <;>
      rw [h'] at h <;> cases h
    · rfl
    · exact absurd rfl (hne l)
  subst this
  induction n with
  | zero => rfl
  | succ n ih => simp only [DataRuns.calls, h, ih, List.replicate_succ]

example : (DataRuns.new 4096 [0x21, 0, 1, 1] (some 64)).next =
    (some (.err (.invalidClusterCountInDataRunHeader (some 64) 0)),
      DataRuns.new 4096 [0x21, 0, 1, 1] (some 64)) := by decide

/-- C10 fails for `LcnTooBig`: the second call reports another error. -/
theorem C10_negation : ∃ r : DataRuns, ∃ e1 e2,
    r = DataRuns.new 4096 [0x81, 1, 0, 0, 0, 0, 0, 0, 0x10, 0] none ∧
    r.calls 2 = [some (.err e1), some (.err e2)] ∧ e1 ≠ e2 :=
  ⟨_, .lcnTooBig 4503599627370496, .lcnTooBig 9007199254740992, rfl, by decide, by decide⟩

/-- C10, what remains true for every error in a state reached from a fresh iterator: after an error
the iterator never yields a run again. -/
theorem C10_still_an_error (r r' : DataRuns) (e : Err) (hp : r.state.previousLcn < U64)
    (hcs : r.state.previousLcn * r.clusterSize < U64)
    (h : r.next = (some (.err e), r')) (n : Nat) :
    ∀ x ∈ r'.calls n, ∃ e', x = some (.err e') := by
  by_cases hl : ∀ lcn, e ≠ .lcnTooBig lcn
  · rw [C10_same_error_partial r r' e hp h hl n]
    intro x hx
    exact ⟨e, List.eq_of_mem_replicate hx⟩
  · have hl : ∃ lcn, e = .lcnTooBig lcn := by
      by_cases hx : ∃ lcn, e = .lcnTooBig lcn
      · exact hx
      · exact absurd (fun lcn hh => hx ⟨lcn, hh⟩) hl
    obtain ⟨L, rfl⟩ := hl
    cases hd : r.data.drop r.state.offset with
    | nil => rw [C09_exact_at_end r hd] at h; cases h
    | cons hb c =>
      obtain ⟨cb, ecb⟩ : ∃ cb, cb = hb.toNat % 16 := ⟨_, rfl⟩
      obtain ⟨lb, elb⟩ : ∃ lb, lb = hb.toNat / 16 := ⟨_, rfl⟩
      obtain ⟨count, ecount⟩ : ∃ n, n = leNat (c.take cb) := ⟨_, rfl⟩
      obtain ⟨delta, edelta⟩ : ∃ z, z = signedLE ((c.drop cb).take lb) := ⟨_, rfl⟩
      obtain ⟨lcn, elcn⟩ : ∃ z, z = (r.state.previousLcn : Int) + delta := ⟨_, rfl⟩
      have hn := C09_exact r hb c hd hp cb lb count _ delta lcn ecb elb ecount edelta elcn rfl
      have hn2 := fun l hl => C09_exact { r with state := { r.state with previousLcn := l } } hb c hd hl
        cb lb count _ delta _ ecb elb ecount edelta rfl rfl
      rw [h] at hn
      by_cases h0 : hb = 0
      · rw [if_pos h0] at hn; cases hn
      rw [if_neg h0] at hn
      by_cases h1 : 8 < cb
      · rw [if_pos h1] at hn; cases hn
      rw [if_neg h1] at hn
      by_cases h2 : c.length < cb
      · rw [if_pos h2] at hn; cases hn
      rw [if_neg h2] at hn
      by_cases h3 : count = 0 ∨ U64 ≤ count * r.clusterSize
      · rw [if_pos h3] at hn; cases hn
      rw [if_neg h3] at hn
      by_cases h4 : 8 < lb
      · rw [if_pos h4] at hn; cases hn
      rw [if_neg h4] at hn
      by_cases h5 : c.length < cb + lb
      · rw [if_pos h5] at hn; cases hn
      rw [if_neg h5] at hn
      by_cases h6 : delta = 0
      · rw [if_pos h6] at hn; cases hn
      rw [if_neg h6] at hn
      by_cases h7 : lcn < 0 ∨ U64 ≤ lcn
      · rw [if_pos h7] at hn; cases hn
      rw [if_neg h7] at hn
      by_cases h8 : U64 ≤ lcn.toNat * r.clusterSize
      case neg => rw [if_neg h8] at hn; cases hn
      rw [if_pos h8] at hn
      have hpos : 0 < delta := by
        by_cases hd0 : 0 ≤ delta
        · omega
        · have : lcn.toNat ≤ r.state.previousLcn := by omega
          have := Nat.mul_le_mul_right r.clusterSize this
          omega
      have key : ∀ l, l < U64 → U64 ≤ l * r.clusterSize →
          ∃ e' l', DataRuns.next { r with state := { r.state with previousLcn := l } } =
            (some (.err e'), { r with state := { r.state with previousLcn := l' } }) ∧
            l' < U64 ∧ U64 ≤ l' * r.clusterSize := by
        intro l hl hlc
        have hn2 := hn2 l hl
        dsimp only at hn2
        rw [if_neg h0, if_neg h1, if_neg h2, if_neg h3, if_neg h4, if_neg h5, if_neg h6] at hn2
        by_cases g7 : ((l : Int) + delta < 0 ∨ U64 ≤ (l : Int) + delta)
        · rw [if_pos g7] at hn2
          exact ⟨_, l, hn2, hl, hlc⟩
        · rw [if_neg g7] at hn2
          have hge : l * r.clusterSize ≤ ((l : Int) + delta).toNat * r.clusterSize :=
            Nat.mul_le_mul_right _ (by omega)
          rw [if_pos (by omega)] at hn2
          exact ⟨_, _, hn2, by omega, by omega⟩
      cases hn
      have go : ∀ n l, l < U64 → U64 ≤ l * r.clusterSize → ∀ x ∈
          DataRuns.calls n { r with state := { r.state with previousLcn := l } },
          ∃ e', x = some (.err e') := by
        intro n
        induction n with
        | zero => intro l _ _ x hx; cases hx
        | succ n ih =>
          intro l h1 h2 x hx
          obtain ⟨e', l', k1, k2, k3⟩ := key l h1 h2
          simp only [DataRuns.calls, List.mem_cons] at hx
          rcases hx with hx | hx
          · exact ⟨e', by rw [hx, k1]⟩
          · rw [k1] at hx
            exact ih l' k2 k3 x hx
      exact go n lcn.toNat (by omega) h8

/-- The reachable states are exactly of this kind: the accumulated LCN of a fresh iterator, or after
successful calls, has a representable address. -/
theorem C10_reachable (cs : Nat) (data : Bytes) (p : Pos) :
    (DataRuns.new cs data p).state.previousLcn * cs < U64 ∧
    ∀ (r r' : DataRuns) (x : DataRun), r.state.previousLcn < U64 →
      r.state.previousLcn * r.clusterSize < U64 → r.next = (some (.ok x), r') →
      r'.state.previousLcn < U64 ∧ r'.state.previousLcn * r'.clusterSize < U64 := by
  refine ⟨by simp [DataRuns.new], ?_⟩
  intro r r' x hp hcs h
  rcases r.next_cases hp with ⟨_, h', _⟩ | ⟨_, h'⟩ | ⟨l, h', _⟩ | ⟨_, _, _, h', _, _, h3, h4, _⟩ <;>
      rw [h'] at h <;> cases h
  refine ⟨h3, ?_⟩
  rcases h4 with h4 | h4
  · dsimp only; rw [h4]; exact hcs
  · exact h4

/-- C11 is violated for every run at LCN 0 and every run with the same LCN as the one before: the
iterator reports a run without position (which reads as zeros). -/
theorem C11_negation (r : DataRuns) (cb lb count l : Nat) (rest : Bytes)
    (hp : r.state.previousLcn < U64)
    (hd : r.data.drop r.state.offset = encodeRun cb lb r.state.previousLcn ⟨count, some l⟩ ++ rest)
    (hw : WidthsOk cb lb r.state.previousLcn ⟨count, some l⟩)
    (hrep : Representable r.clusterSize ⟨count, some l⟩)
    (hbad : l = 0 ∨ l = r.state.previousLcn) :
    r.next.1 = some (.ok ⟨none, count * r.clusterSize, 0⟩) := by
  obtain ⟨h1, h2, h3, h4, h6, h7, h8⟩ := hw
  obtain ⟨hr1, hr2⟩ := hrep
  dsimp only at h3 h4 hr1
  have hlcs := hr2 l rfl
  simp only [encodeRun, List.cons_append, List.append_assoc] at hd
  have hn := C09_exact r _ _ hd hp _ _ _ _ _ _ rfl rfl rfl rfl rfl rfl
  have hh : (UInt8.ofNat (16 * lb + cb)).toNat = 16 * lb + cb := by simp; omega
  have hne : UInt8.ofNat (16 * lb + cb) ≠ 0 := by
    intro h; have := congrArg UInt8.toNat h; rw [hh] at this; simp at this; omega
  rw [hh] at hn
  have hm : (16 * lb + cb) % 16 = cb := by omega
  have hq : (16 * lb + cb) / 16 = lb := by omega
  have t1 : ∀ y : Bytes, (leBytes cb count ++ y).take cb = leBytes cb count := by
    intro y; simp
  have t2 : ∀ y : Bytes, (leBytes cb count ++ y).drop cb = y := by
    intro y; simp
  have t3 : ∀ z, (sleBytes lb z ++ rest).take lb = sleBytes lb z := by
    intro y; simp
  have t4 : signedLE (sleBytes lb ((l : Int) - r.state.previousLcn)) =
      (l : Int) - r.state.previousLcn := by
    have e1 := signExtend_sleBytes lb _ h7 h8
    rw [signExtend_eq lb _ h7 (leNat_lt_of_length (sleBytes_length _ _))] at e1
    simpa only [signedLE, sleBytes_length] using e1
  simp only [hm, hq, t1, t2, t3, t4, leNat_leBytes_of_lt h4, List.length_append, leBytes_length,
    sleBytes_length] at hn
  rw [hn, if_neg hne, if_neg (by omega), if_neg (by omega), if_neg (by omega), if_neg (by omega),
    if_neg (by omega)]
  by_cases hz : (l : Int) - r.state.previousLcn = 0
  · rw [if_pos hz]
  · have hl0 : l = 0 := by omega
    subst hl0
    rw [if_neg hz, if_neg (by omega)]
    have e : ((r.state.previousLcn : Int) + (((0 : Nat) : Int) - r.state.previousLcn)).toNat = 0 := by
      omega
    simp only [e, Nat.zero_mul]
    rw [if_neg (by omega)]
    rfl

/-- $Boot: one run of two clusters at LCN 0. -/
example : (DataRuns.new 4096 [0x11, 2, 0] none).next.1 = some (.ok ⟨none, 8192, 0⟩) :=
  C11_negation (DataRuns.new 4096 [0x11, 2, 0] none) 1 1 2 0 [] (by decide) (by decide)
    (by simp [WidthsOk, FitsSigned, DataRuns.new]) (by simp [Representable, DataRuns.new]) (.inl rfl)

/-! ### The theorems of this file on concrete runs -/

example := C08_roundtrip 4096 _ (some 64) _ exampleEncodes (by decide) (by simp [Representable])
  (by simp [NonZero, Extent.lcnAfter]) 2
example := C08_only_encodings (DataRuns.new 4096 [0x21, 3, 0xE8, 3] none) _ ⟨some 4096000, 12288, 0⟩ 4096000 (by decide) rfl rfl
example := C09_exact_at_end ⟨4096, [0x21, 3, 0xE8, 3], none, ⟨4, 1000⟩⟩ rfl
/-- A header that claims nine bytes for the count. -/
example : (Res.err (.invalidByteCountInDataRunHeader (some 100) 9 8) : Res DataRun).Safe :=
  C09_no_panic (DataRuns.new 4096 [0x19, 1, 2, 3] (some 100)) (by decide) _ rfl
example := C09_progress (DataRuns.new 4096 [0x21, 3, 0xE8, 3] none) _ ⟨some 4096000, 12288, 0⟩ (by decide) rfl
example := C09_ended_stays_ended (DataRuns.new 4096 [0, 0x21, 3] none) (by decide) rfl 5
example := C09_few_runs (DataRuns.new 4096 [0x21, 3, 0xE8, 3, 0x02, 2, 0, 0x99] none) (by decide) 9
example := C09_terminates (DataRuns.new 4096 [0x21, 3, 0xE8, 3, 0x02, 2, 0, 0x99] none) (by decide)
example := C10_same_error_partial (DataRuns.new 4096 [0x21, 0, 1, 1] (some 64)) _ (.invalidClusterCountInDataRunHeader (some 64) 0)
  (by decide) rfl (by intro l h; cases h) 3
example := C10_still_an_error (DataRuns.new 4096 [0x81, 1, 0, 0, 0, 0, 0, 0, 0x10, 0] none) _ (.lcnTooBig (2 ^ 52))
  (by decide) (by decide) rfl 3

end NT
