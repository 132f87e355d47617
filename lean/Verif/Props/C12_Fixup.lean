import Verif.Model.Record
import Verif.Spec.Record
import Verif.Lemmas.Bytes

namespace NT

open Spec

theorem tail_eq (d : Bytes) (a b : Nat) (h : a + 2 ≤ d.length) (hb : b = a + 2) :
    idxRange d a b = .ok ((d.drop a).take 2) := by
  subst hb
  rw [idxRange_ok (by omega) h]
  congr 2
  omega

/-- Two-byte windows that do not overlap the overwritten window are unchanged. -/
theorem window_overwrite (d b : Bytes) (i a : Nat) (hb : b.length = 2) (h : i + 2 ≤ d.length)
    (ha : a + 2 ≤ i ∨ i + 2 ≤ a) :
    ((overwrite d i b).drop a).take 2 = (d.drop a).take 2 := by
  apply List.ext_getElem?
  intro j
  rw [List.getElem?_take, List.getElem?_take]
  split
  · rw [List.getElem?_drop, List.getElem?_drop, overwrite_getElem? (by omega)]
    split
    · rfl
    · rw [if_neg (by omega)]
  · rfl

/-- The sector comparisons of the loop always look at the original bytes. -/
theorem fixupLoop_ok_tails (p : Pos) (usn : Bytes) (n : Nat) (d : Bytes) (ap sp : Nat) (d' : Bytes)
    (h : Record.fixupLoop p usn n d ap sp = .ok d') :
    ∀ i < n, (d.drop (sp + 512 * i)).take 2 = usn := by
  induction n generalizing d ap sp with
  | zero => intro i hi; omega
  | succ n ih =>
    unfold Record.fixupLoop at h
    rw [Res.bind_eq_ok] at h; obtain ⟨nb, hnb, h⟩ := h
    rw [Res.bind_eq_ok] at h; obtain ⟨cur, hcur, h⟩ := h
    unfold idxRange at hnb hcur
    split at hnb <;> simp at hnb
    split at hcur <;> simp at hcur
    rename_i x hx _ y hy
    subst hnb hcur
    have hxl := getRange_length hx
    rw [getRange_isSome_iff] at hx hy
    obtain ⟨hx1, hx2, hx3⟩ := hx
    obtain ⟨hy1, hy2, hy3⟩ := hy
    split at h
    · contradiction
    · rename_i hne
      simp only [ne_eq, Decidable.not_not] at hne
      intro i hi
      match i with
      | 0 =>
        rw [hy3] at hne
        simpa using hne
      | i + 1 =>
        have := ih _ _ _ h i (by omega)
        rw [window_overwrite _ _ _ _ (by omega) (by omega)
          (by right; simp only [NTFS_BLOCK_SIZE]; omega)] at this
        rw [← this]
        congr 2
        simp only [NTFS_BLOCK_SIZE]; omega

/-- The loop, exactly: with all windows in range it succeeds iff all tails carry the sequence number;
otherwise it reports the first tail that does not. -/
theorem fixupLoop_mismatch (p : Pos) (usn : Bytes) (n : Nat) (d : Bytes) (ap sp : Nat)
    (h1 : ap + 2 * n ≤ d.length) (h2 : n = 0 ∨ sp + 512 * (n - 1) + 2 ≤ d.length)
    (i : Nat) (hi : i < n) (hbad : (d.drop (sp + 512 * i)).take 2 ≠ usn)
    (hgood : ∀ k < i, (d.drop (sp + 512 * k)).take 2 = usn) :
    Record.fixupLoop p usn n d ap sp =
      .err (.updateSequenceNumberMismatch (Pos.add p (ap + 2 * i)) usn
        ((d.drop (sp + 512 * i)).take 2)) := by
  induction n generalizing d ap sp i with
  | zero => omega
  | succ n ih =>
    unfold Record.fixupLoop
    rw [tail_eq d ap _ (by omega) rfl, Res.bind_ok, tail_eq d sp _ (by omega) rfl, Res.bind_ok]
    match i with
    | 0 =>
      rw [if_pos (by simpa using hbad)]
      simp
    | i + 1 =>
      have h0 := hgood 0 (by omega)
      simp only [Nat.mul_zero, Nat.add_zero] at h0
      rw [if_neg (by simpa using h0)]
      have hl : (List.take 2 (List.drop ap d)).length = 2 := by simp; omega
      have hw : ∀ k, k < n → List.take 2 (List.drop (sp + NTFS_BLOCK_SIZE + 512 * k)
          (overwrite d sp (List.take 2 (List.drop ap d)))) =
          List.take 2 (List.drop (sp + 512 * (k + 1)) d) := by
        intro k hk
        rw [window_overwrite _ _ _ _ hl (by omega) (by right; simp only [NTFS_BLOCK_SIZE]; omega)]
        congr 2
        simp only [NTFS_BLOCK_SIZE]; omega
      have hlen : (overwrite d sp (List.take 2 (List.drop ap d))).length = d.length :=
        overwrite_length (by omega)
      rw [ih (overwrite d sp (List.take 2 (List.drop ap d))) (ap + 2) (sp + NTFS_BLOCK_SIZE)
        (by omega) (by rw [hlen]; simp only [NTFS_BLOCK_SIZE]; omega) i (by omega)
        (by rw [hw i (by omega)]; exact hbad)
        (by intro k hk; rw [hw k (by omega)]; exact hgood (k + 1) (by omega))]
      rw [hw i (by omega)]
      congr 3
      omega

theorem fixupLoop_ok (p : Pos) (usn : Bytes) (n : Nat) (d : Bytes) (ap sp : Nat)
    (h1 : ap + 2 * n ≤ d.length) (h2 : n = 0 ∨ sp + 512 * (n - 1) + 2 ≤ d.length)
    (hgood : ∀ k < n, (d.drop (sp + 512 * k)).take 2 = usn)
    (hdis : ∀ k < n, ap + 2 * n ≤ sp + 512 * k ∨ sp + 512 * k + 2 ≤ ap) :
    ∃ d', Record.fixupLoop p usn n d ap sp = .ok d' ∧ d'.length = d.length ∧
      (∀ k < n, (d'.drop (sp + 512 * k)).take 2 = (d.drop (ap + 2 * k)).take 2) ∧
      (∀ j, (∀ k < n, ¬ (sp + 512 * k ≤ j ∧ j < sp + 512 * k + 2)) → d'[j]? = d[j]?) := by
  induction n generalizing d ap sp with
  | zero => exact ⟨d, rfl, rfl, by intro k hk; omega, by intros; rfl⟩
  | succ n ih =>
    unfold Record.fixupLoop
    rw [tail_eq d ap _ (by omega) rfl, Res.bind_ok, tail_eq d sp _ (by omega) rfl, Res.bind_ok]
    have h0 := hgood 0 (by omega)
    simp only [Nat.mul_zero, Nat.add_zero] at h0
    rw [if_neg (by simpa using h0)]
    have hl : (List.take 2 (List.drop ap d)).length = 2 := by simp; omega
    have hlen : (overwrite d sp (List.take 2 (List.drop ap d))).length = d.length :=
      overwrite_length (by omega)
    have hw : ∀ a, (a + 2 ≤ sp ∨ sp + 2 ≤ a) → List.take 2 (List.drop a
        (overwrite d sp (List.take 2 (List.drop ap d)))) = List.take 2 (List.drop a d) :=
      fun a ha => window_overwrite _ _ _ _ hl (by omega) ha
    obtain ⟨d', e, hlen', hk', hj'⟩ := ih (overwrite d sp (List.take 2 (List.drop ap d))) (ap + 2)
      (sp + NTFS_BLOCK_SIZE) (by omega) (by rw [hlen]; simp only [NTFS_BLOCK_SIZE]; omega)
      (by
        intro k hk
        rw [hw _ (by right; simp only [NTFS_BLOCK_SIZE]; omega)]
        have := hgood (k + 1) (by omega)
        rw [← this]; congr 2; simp only [NTFS_BLOCK_SIZE]; omega)
      (by
        intro k hk
        have := hdis (k + 1) (by omega)
        simp only [NTFS_BLOCK_SIZE]; omega)
    refine ⟨d', e, by omega, ?_, ?_⟩
    · intro k hk
      match k with
      | 0 =>
        simp only [Nat.mul_zero, Nat.add_zero]
        have hx : ∀ t < 2, d'[sp + t]? = d[ap + t]? := by
          intro t ht
          rw [hj' (sp + t) (by intro k hk; simp only [NTFS_BLOCK_SIZE]; omega),
            overwrite_getElem? (by omega), if_neg (by omega), if_pos (by omega)]
          rw [List.getElem?_take, if_pos (by omega), List.getElem?_drop]
          congr 1; omega
        apply List.ext_getElem?
        intro j
        rw [List.getElem?_take, List.getElem?_take]
        split
        · rw [List.getElem?_drop, List.getElem?_drop]; exact hx j (by omega)
        · rfl
      | k + 1 =>
        have := hk' k (by omega)
        have e1 : sp + NTFS_BLOCK_SIZE + 512 * k = sp + 512 * (k + 1) := by
          simp only [NTFS_BLOCK_SIZE]; omega
        have e2 : ap + 2 + 2 * k = ap + 2 * (k + 1) := by omega
        rw [e1, e2] at this
        rw [this]
        apply hw
        have := hdis 0 (by omega)
        omega
    · intro j hj
      have h0 := hj 0 (by omega)
      rw [hj' j (by
        intro k hk
        have := hj (k + 1) (by omega)
        simp only [NTFS_BLOCK_SIZE]; omega), overwrite_getElem? (by omega)]
      split
      · rfl
      · rw [if_neg (by omega)]

/-- `fixup` on a record of at least 8 bytes, with the fields named. -/
theorem fixup_eq (r : Record) (h8 : 8 ≤ r.data.length) :
    r.fixup =
      if field r.data 4 2 + 2 ≤ r.data.length then
        if field r.data 6 2 = 0 then .err (.invalidUpdateSequenceCount r.position 0)
        else if field r.data 4 2 + 2 < U16 then
          if field r.data 4 2 + 2 * field r.data 6 2 > r.data.length ∨
              (field r.data 6 2 - 1) * 512 > r.data.length then
            .err (.updateSequenceArrayExceedsRecordSize r.position (field r.data 6 2 - 1)
              r.data.length)
          else do
            let data ← Record.fixupLoop r.position ((r.data.drop (field r.data 4 2)).take 2)
              (field r.data 6 2 - 1) r.data (field r.data 4 2 + 2) 510
            pure { r with data }
        else .panic .overflow
      else .err (.invalidUpdateSequenceNumberRange r.position (field r.data 4 2)
        (field r.data 4 2 + 2) r.data.length) := by
  unfold Record.fixup Record.usNumber Record.usArrayCount Record.usArrayStart Record.usSize
    Record.usOffset
  rw [readLE_ok (n := 2) (a := 4) (by omega), readLE_ok (n := 2) (a := 6) (by omega)]
  generalize field r.data 4 2 = off
  generalize field r.data 6 2 = cnt
  simp only [Res.bind_ok, Res.pure_eq]
  by_cases h1 : off + 2 ≤ r.data.length
  · rw [if_pos h1, getRange_eq_some (by omega) h1]
    simp only [Res.bind_ok]
    by_cases h2 : cnt = 0
    · simp [h2, checkedSub, Res.ofOption]
    · rw [if_neg h2]
      have : checkedSub cnt 1 = some (cnt - 1) := by simp [checkedSub]; omega
      rw [this]
      simp only [Res.ofOption, Res.bind_ok]
      by_cases h3 : off + 2 < U16
      · rw [if_pos h3, if_pos h3]
        simp only [Res.bind_ok, NTFS_BLOCK_SIZE]
        have e1 : off + cnt * 2 = off + 2 * cnt := by omega
        have e2 : (off + 2 * cnt - (off + 2)) / 2 = cnt - 1 := by omega
        have e3 : off + 2 - off = 2 := by omega
        rw [e1, e2, e3]
      · rw [if_neg h3, if_neg h3]; rfl
  · rw [if_neg h1]
    have : getRange r.data off (off + 2) = none := by
      unfold getRange; rw [if_neg (by omega)]
    rw [this]; rfl

/-- C12: reading back a protected record gives the original bytes everywhere outside the update
sequence array (where the on-disk bytes stay), including all sector tails. -/
theorem C12_roundtrip (orig disk usn : Bytes) (n off : Nat) (pos : Pos)
    (h : Protected orig disk n off usn) :
    ∃ d', (Record.mk disk pos).fixup = .ok ⟨d', pos⟩ ∧ d'.length = orig.length ∧
      (∀ j, ¬ (off ≤ j ∧ j < off + 2 + 2 * n) → d'[j]? = orig[j]?) ∧
      (∀ j, off ≤ j → j < off + 2 + 2 * n → d'[j]? = disk[j]?) := by
  have hlen := h.len
  have hin := h.inside
  have hc : field disk 6 2 < 65536 := field_lt (n := 2) (by omega)
  have ho : field disk 4 2 < 65536 := field_lt (n := 2) (by omega)
  have hcf := h.countField
  have hof := h.offField
  have hap := h.apart
  rw [fixup_eq _ (by simp only; omega)]
  simp only
  rw [h.offField, h.countField, if_pos (by omega), if_neg (by omega)]
  have hoff : off + 2 < U16 := by
    by_cases hn : n ≤ 127
    · omega
    · have := hap 127 (by omega)
      omega
  rw [if_pos hoff, if_neg (by omega), h.usnAt]
  have en : n + 1 - 1 = n := by omega
  rw [en]
  have hn0 : n ≠ 0 := by omega
  obtain ⟨d', e, hl, hk, hj⟩ := fixupLoop_ok pos usn n disk (off + 2) 510 (by omega) (by omega)
    (by
      intro k hk
      have := h.tails k hk
      unfold TailIs at this
      rw [← this]; congr 2; omega)
    (by intro k hk; have := hap k hk; omega)
  refine ⟨d', by rw [e]; rfl, by omega, ?_, ?_⟩
  · intro j hnj
    by_cases hT : ∃ i < n, InTail i j
    · obtain ⟨i, hi, ht⟩ := hT
      have h1 := h.saved i hi
      have h2 := hk i hi
      unfold TailIs arrayElem at h1
      unfold InTail at ht
      rw [← h1] at h2
      have := congrArg (fun l => l[j - (512 * i + 510)]?) h2
      simp only [List.getElem?_take, List.getElem?_drop] at this
      rw [if_pos (by omega), if_pos (by omega)] at this
      have e1 : d'[510 + 512 * i + (j - (512 * i + 510))]? = d'[j]? := congrArg (d'[·]?) (by omega)
      have e2 : orig[512 * i + 510 + (j - (512 * i + 510))]? = orig[j]? :=
        congrArg (orig[·]?) (by omega)
      exact e1.symm.trans (this.trans e2)
    · have hT' : ∀ i < n, ¬ InTail i j := fun i hi hh => hT ⟨i, hi, hh⟩
      rw [hj j (by
        intro k hk hh
        apply hT' k hk
        unfold InTail; omega)]
      exact h.rest j hT' hnj
  · intro j h1 h2
    apply hj
    intro k hk
    have := hap k hk
    omega

theorem exampleRest (A B t1 t2 u1 u2 : Bytes) (hA : A.length = 510) (hB : B.length = 510)
    (h1 : t1.length = 2) (h2 : t2.length = 2) (h3 : u1.length = 2) (h4 : u2.length = 2)
    (j : Nat) (hj1 : ¬ (510 ≤ j ∧ j < 512)) (hj2 : ¬ (1022 ≤ j ∧ j < 1024)) :
    (A ++ t1 ++ B ++ t2)[j]? = (A ++ u1 ++ B ++ u2)[j]? := by
  simp only [List.getElem?_append, List.length_append, hA, hB, h1, h3]
  by_cases a1 : j < 510
  · rw [if_pos (by omega), if_pos (by omega), if_pos (by omega), if_pos (by omega),
      if_pos (by omega), if_pos (by omega)]
  · by_cases a2 : j < 1022
    · have b1 : j < 510 + 2 + 510 := by omega
      have b2 : ¬ j < 510 + 2 := by omega
      simp only [b1, b2, if_true, if_false]
    · rw [if_neg (by omega), if_neg (by omega), List.getElem?_eq_none (by omega),
        List.getElem?_eq_none (by omega)]

/-- Writing a protected record (used only to show that the hypotheses of `C12_roundtrip` can be
met). -/
def exampleOrig : Bytes :=
  [0x46, 0x49, 0x4C, 0x45, 48, 0, 3, 0] ++ List.replicate 40 0 ++ [9, 0, 1, 2, 3, 4] ++
    List.replicate 456 7 ++ [1, 2] ++ List.replicate 510 8 ++ [3, 4]

def exampleDisk : Bytes :=
  [0x46, 0x49, 0x4C, 0x45, 48, 0, 3, 0] ++ List.replicate 40 0 ++ [9, 0, 1, 2, 3, 4] ++
    List.replicate 456 7 ++ [9, 0] ++ List.replicate 510 8 ++ [9, 0]

example : Protected exampleOrig exampleDisk 2 48 [9, 0] where
  len := by decide +kernel
  usnLen := rfl
  offField := by decide +kernel
  countField := by decide +kernel
  usnAt := by decide +kernel
  saved := by unfold TailIs; decide +kernel
  tails := by unfold TailIs; decide +kernel
  rest := by
    intro j h1 _
    have h10 := h1 0 (by omega)
    have h11 := h1 1 (by omega)
    unfold InTail at h10 h11
    exact exampleRest _ _ _ _ _ _ (by decide +kernel) (by decide +kernel) rfl rfl rfl rfl j
      (by omega) (by omega)
  inside := by omega
  apart := by intro i hi; omega

theorem Record.fixupLoop_length (p : Pos) (usn : Bytes) (n : Nat) (d : Bytes) (ap sp : Nat) (d' : Bytes)
    (h : Record.fixupLoop p usn n d ap sp = .ok d') : d'.length = d.length := by
  induction n generalizing d ap sp with
  | zero => cases h; rfl
  | succ n ih =>
    simp only [Record.fixupLoop] at h
    rw [Res.bind_eq_ok] at h
    obtain ⟨nb, h1, h⟩ := h
    rw [Res.bind_eq_ok] at h
    obtain ⟨cur, h2, h⟩ := h
    split at h
    · cases h
    · have l1 : nb.length = 2 := by
        unfold idxRange at h1
        cases hg : getRange d ap (ap + 2) with
        | none => rw [hg] at h1; cases h1
        | some x =>
          rw [hg] at h1; cases h1
          have := (getRange_length hg); omega
      have l2 : sp + 2 ≤ d.length := by
        unfold idxRange at h2
        cases hg : getRange d sp (sp + 2) with
        | none => rw [hg] at h2; cases h2
        | some x => exact (getRange_isSome_iff.1 hg).2.1
      have := ih _ _ _ h
      rw [this]
      exact overwrite_length (by omega)

/-- A fixup that succeeds changes neither the size nor the position of the record. -/
theorem Record.fixup_length {r r' : Record} (h : r.fixup = .ok r') :
    r'.data.length = r.data.length ∧ r'.position = r.position := by
  unfold Record.fixup at h
  simp only [Res.bind_eq_ok] at h
  obtain ⟨_, _, _, _, _, _, _, _, _, _, h⟩ := h
  split at h
  · cases h
  · rw [Res.bind_eq_ok] at h
    obtain ⟨d, h1, h2⟩ := h
    cases h2
    exact ⟨Record.fixupLoop_length _ _ _ _ _ _ _ h1, rfl⟩

/-- C13: whatever the bytes of a record are, if fixup succeeds then every sector counted by the
update sequence array ended with the update sequence number. -/
theorem C13_ok_means_all_match (r r' : Record) (h8 : 8 ≤ r.data.length) (h : r.fixup = .ok r') :
    ∀ i, i + 1 < field r.data 6 2 →
      TailIs r.data i ((r.data.drop (field r.data 4 2)).take 2) := by
  rw [fixup_eq r h8] at h
  split at h
  case isFalse => contradiction
  split at h
  · contradiction
  split at h
  case isFalse => contradiction
  split at h
  · contradiction
  rw [Res.bind_eq_ok] at h
  obtain ⟨d, h, _⟩ := h
  intro i hi
  have := fixupLoop_ok_tails _ _ _ _ _ _ _ h i (by omega)
  unfold TailIs
  rw [← this]
  congr 2
  omega

/-- C13: with a well-formed header, the first sector whose tail differs from the update sequence
number is reported, with both values and the position of its array element. -/
theorem C13_first_mismatch_reported (d : Bytes) (p : Pos) (off n i : Nat) (h8 : 8 ≤ d.length)
    (hoff : field d 4 2 = off) (hn : field d 6 2 = n + 1) (hu : off + 2 < U16)
    (h1 : off + 2 + 2 * n ≤ d.length) (h2 : 512 * n ≤ d.length) (hi : i < n)
    (hbad : ¬ TailIs d i ((d.drop off).take 2))
    (hgood : ∀ k < i, TailIs d k ((d.drop off).take 2)) :
    (Record.mk d p).fixup = .err (.updateSequenceNumberMismatch (Pos.add p (off + 2 + 2 * i))
      ((d.drop off).take 2) ((d.drop (512 * i + 510)).take 2)) := by
  rw [fixup_eq _ h8]
  simp only
  rw [hoff, hn, if_pos (by omega), if_neg (by omega), if_pos hu, if_neg (by omega)]
  have en : n + 1 - 1 = n := by omega
  have ex : ∀ k, 510 + 512 * k = 512 * k + 510 := by omega
  rw [en, fixupLoop_mismatch p _ n d (off + 2) 510 (by omega) (by omega) i hi
    (by rw [ex]; exact hbad) (by intro k hk; rw [ex]; exact hgood k hk), ex]
  rfl

/-- C13, stated over crash points: each sector of the image read back is either the new or the old
version of the record, both written with protection and with different sequence numbers. If the
sector holding the array (and header) is from one version and some other sector from the other, the
record is rejected. -/
theorem C13_torn_write (a b mix : Bytes) (p : Pos) (n off : Nat) (usnA usnB : Bytes)
    (hBtail : ∀ i < n, TailIs b i usnB) (hne : usnA ≠ usnB)
    (hlen : mix.length = 512 * n)
    (hoff : field a 4 2 = off) (hcount : field a 6 2 = n + 1) (hin : off + 2 ≤ 510)
    (husn : (a.drop off).take 2 = usnA)
    (fromA : Nat → Prop) (h0 : fromA 0) (hsome : ∃ i < n, ¬ fromA i)
    (hA : ∀ i < n, fromA i → (mix.drop (512 * i)).take 512 = (a.drop (512 * i)).take 512)
    (hB : ∀ i < n, ¬ fromA i → (mix.drop (512 * i)).take 512 = (b.drop (512 * i)).take 512) :
    ∀ r', (Record.mk mix p).fixup ≠ .ok r' := by
  obtain ⟨i, hi, hb⟩ := hsome
  have sub : ∀ (x y : Bytes) (q s t : Nat), (x.drop q).take 512 = (y.drop q).take 512 →
      s + t ≤ 512 → (x.drop (q + s)).take t = (y.drop (q + s)).take t := by
    intro x y q s t h hst
    have := congrArg (fun l => (l.drop s).take t) h
    simp only [List.drop_take, List.drop_drop, List.take_take] at this
    have e : min t (512 - s) = t := by omega
    rwa [e] at this
  have hs0 := hA 0 (by omega) h0
  have f4 : field mix 4 2 = off := by
    rw [← hoff]; unfold field; have := sub mix a 0 4 2 hs0 (by omega); simpa using congrArg leNat this
  have f6 : field mix 6 2 = n + 1 := by
    rw [← hcount]; unfold field
    have := sub mix a 0 6 2 hs0 (by omega); simpa using congrArg leNat this
  have fu : (mix.drop off).take 2 = usnA := by
    rw [← husn]; have := sub mix a 0 off 2 hs0 (by omega); simpa using this
  intro r' h
  have := C13_ok_means_all_match _ r' (by simp only; omega) h i (by simp only; omega)
  simp only [f4, fu] at this
  apply hne
  rw [← this]
  have hb' := hBtail i hi
  unfold TailIs at *
  rw [← hb']
  exact sub mix b (512 * i) 510 2 (hB i hi hb) (by omega)

/-- An older version of the example record, written with sequence number 8. -/
def exampleOldDisk : Bytes :=
  [0x46, 0x49, 0x4C, 0x45, 48, 0, 3, 0] ++ List.replicate 40 0 ++ [8, 0, 1, 2, 3, 4] ++
    List.replicate 456 6 ++ [8, 0] ++ List.replicate 510 5 ++ [8, 0]

example : let mix := exampleDisk.take 512 ++ exampleOldDisk.drop 512
    (∀ i < 2, TailIs exampleOldDisk i [8, 0]) ∧ mix.length = 512 * 2 ∧
    field exampleDisk 4 2 = 48 ∧ field exampleDisk 6 2 = 2 + 1 ∧
    (exampleDisk.drop 48).take 2 = [9, 0] ∧
    (∀ i < 2, i = 0 → (mix.drop (512 * i)).take 512 = (exampleDisk.drop (512 * i)).take 512) ∧
    (∀ i < 2, ¬ i = 0 → (mix.drop (512 * i)).take 512 = (exampleOldDisk.drop (512 * i)).take 512)
    := by
  unfold TailIs; decide +kernel

/-- The last byte of a sector damaged: the theorems above apply. -/
def exampleTorn : Bytes := exampleDisk.take 1022 ++ [8, 0]

example : 8 ≤ exampleTorn.length ∧ field exampleTorn 4 2 = 48 ∧ field exampleTorn 6 2 = 2 + 1 ∧
    48 + 2 + 2 * 2 ≤ exampleTorn.length ∧ 512 * 2 ≤ exampleTorn.length ∧
    (exampleTorn.drop (512 * 1 + 510)).take 2 ≠ (exampleTorn.drop 48).take 2 ∧
    (exampleTorn.drop 510).take 2 = (exampleTorn.drop 48).take 2 := by decide +kernel

theorem fixupLoop_safe (p : Pos) (usn : Bytes) (n : Nat) (d : Bytes) (ap sp : Nat)
    (h1 : ap + 2 * n ≤ d.length) (h2 : n = 0 ∨ sp + 512 * (n - 1) + 2 ≤ d.length) :
    (Record.fixupLoop p usn n d ap sp).Safe := by
  induction n generalizing d ap sp with
  | zero => trivial
  | succ n ih =>
    unfold Record.fixupLoop
    rw [tail_eq d ap _ (by omega) rfl, Res.bind_ok, tail_eq d sp _ (by omega) rfl, Res.bind_ok]
    split
    · trivial
    · apply ih
      · rw [overwrite_length (by simp; omega)]; omega
      · rw [overwrite_length (by simp; omega)]; simp only [NTFS_BLOCK_SIZE]; omega

/-- C14: fixup of a record (at least 8 bytes, i.e. any record that has a header) panics in exactly
one situation: the update sequence number starts at byte 65534 or 65535 of the record, which needs a
record of 64 KiB or more. -/
theorem C14_panic_iff (r : Record) (h8 : 8 ≤ r.data.length) :
    ¬ r.fixup.Safe ↔
      field r.data 6 2 ≠ 0 ∧ 65534 ≤ field r.data 4 2 ∧ field r.data 4 2 + 2 ≤ r.data.length := by
  rw [fixup_eq r h8]
  split
  case isFalse => simp [Res.Safe]; omega
  split
  · simp [Res.Safe]; omega
  split
  case isFalse => simp [Res.Safe]; omega
  split
  · simp [Res.Safe]; omega
  have : (Record.fixupLoop r.position ((r.data.drop (field r.data 4 2)).take 2)
              (field r.data 6 2 - 1) r.data (field r.data 4 2 + 2) 510).Safe :=
    fixupLoop_safe _ _ _ _ _ _ (by omega) (by omega)
  constructor
  · intro h
    exfalso; apply h
    exact Res.safe_bind this (by intros; trivial)
  · omega

/-- C14 for every record size below 64 KiB: no panic. -/
theorem C14_no_panic_partial (r : Record) (h8 : 8 ≤ r.data.length) (h64 : r.data.length < 65536) :
    r.fixup.Safe := by
  have := C14_panic_iff r h8
  by_cases h : r.fixup.Safe
  · exact h
  · have := this.1 h; omega

/-- C14 fails for 64 KiB records: a concrete record on which fixup panics. -/
theorem C14_negation : ∃ r : Record, r.data.length = 65536 ∧ r.fixup = .panic .overflow := by
  obtain ⟨z, hz⟩ : ∃ z : Bytes, z.length = 65528 := ⟨List.replicate 65528 0, List.length_replicate⟩
  refine ⟨⟨[0x46, 0x49, 0x4C, 0x45, 0xFE, 0xFF, 1, 0] ++ z, none⟩, ?_, ?_⟩
  · simp only [List.length_append, hz, List.length_cons, List.length_nil]
  · have hl : ([0x46, 0x49, 0x4C, 0x45, 0xFE, 0xFF, 1, 0] ++ z).length = 65536 := by
      simp only [List.length_append, hz, List.length_cons, List.length_nil]
    have e4 : field ([0x46, 0x49, 0x4C, 0x45, 0xFE, 0xFF, 1, 0] ++ z) 4 2 = 65534 := by
      simp [field, leNat]
    have e6 : field ([0x46, 0x49, 0x4C, 0x45, 0xFE, 0xFF, 1, 0] ++ z) 6 2 = 1 := by
      simp [field, leNat]
    rw [fixup_eq _ (by simp only; omega)]
    simp only [e4, e6, hl]
    rw [if_pos (by omega), if_neg (by omega), if_neg (by omega)]

example : ∃ r : Record, 8 ≤ r.data.length ∧ r.data.length < 65536 ∧ field r.data 6 2 = 3 :=
  ⟨⟨exampleDisk, none⟩, by decide +kernel, by decide +kernel, by decide +kernel⟩

/-! ### The theorems of this file on concrete records -/

/-- An older record with the number 8. `exampleTorn` has its second sector. -/
def exampleOlder : Bytes :=
  [0x46, 0x49, 0x4C, 0x45, 48, 0, 3, 0] ++ List.replicate 40 0 ++ [8, 0, 1, 2, 3, 4] ++
    List.replicate 456 5 ++ [8, 0] ++ List.replicate 510 8 ++ [8, 0]

example := C13_ok_means_all_match ⟨exampleDisk, some 4096⟩ ⟨exampleOrig, some 4096⟩ (by decide +kernel) (by decide +kernel)
example := C13_first_mismatch_reported exampleTorn (some 4096) 48 2 1 (by decide +kernel) (by decide +kernel) (by decide +kernel)
  (by decide) (by decide +kernel) (by decide +kernel) (by decide) (by unfold TailIs; decide +kernel)
  (by unfold TailIs; decide +kernel)
example := C13_torn_write exampleDisk exampleOlder exampleTorn (some 4096) 2 48 [9, 0] [8, 0]
  (by unfold TailIs; decide +kernel) (by decide) (by decide +kernel) (by decide +kernel) (by decide +kernel) (by decide)
  (by decide +kernel) (· = 0) rfl ⟨1, by decide, by decide⟩ (by decide +kernel) (by decide +kernel)
set_option maxRecDepth 20000 in
example := C14_panic_iff ⟨exampleTorn, none⟩ (by decide +kernel)
set_option maxRecDepth 20000 in
example := C14_no_panic_partial ⟨exampleTorn, none⟩ (by decide +kernel) (by show exampleTorn.length < _; decide +kernel)

end NT
