import Verif.Model.SectorReader
import Verif.Lemmas.Dev
import Verif.Lemmas.Bytes
import Verif.Spec.Index

/-! C44: the sector reader of the example shell. -/

namespace NT

/-! ### Where the device is after `read_exact` -/

theorem Dev.readExactAux_pos (fuel n : Nat) (acc : Bytes) (d d' : Dev) (b : Bytes)
    (h : Dev.readExactAux fuel n acc d = (.ok b, d')) : d'.pos = d.pos + n ∧ d'.img = d.img := by
  induction fuel generalizing n acc d with
  | zero => cases h
  | succ fuel ih =>
    unfold Dev.readExactAux at h
    by_cases hn : n = 0
    · rw [if_pos hn] at h
      cases h
      exact ⟨by omega, rfl⟩
    rw [if_neg hn] at h
    rcases Dev.read_cases n d with ⟨k, d1, e1, hk, hk0, himg, hpos, hs⟩ | ⟨e, d1, e1, himg, hpos, hs⟩
    · rw [e1] at h
      by_cases hb : ((d.img.drop d.pos).take k).length = 0
      · simp only [if_pos hb] at h
        cases h
      · simp only [if_neg hb] at h
        obtain ⟨h1, h2⟩ := ih _ _ _ h
        refine ⟨?_, by rw [h2, himg]⟩
        rw [h1, hpos]
        have := List.length_take_le k (d.img.drop d.pos)
        omega
    · rw [e1] at h
      cases e with
      | interrupted =>
        obtain ⟨h1, h2⟩ := ih _ _ _ h
        exact ⟨by rw [h1, hpos], by rw [h2, himg]⟩
      | unexpectedEof => cases h
      | invalidInput => cases h
      | other c => cases h

theorem Dev.readExact_pos {n : Nat} {d d' : Dev} {b : Bytes}
    (h : Dev.readExact n d = (.ok b, d')) : d'.pos = d.pos + n ∧ d'.img = d.img :=
  Dev.readExactAux_pos _ _ _ _ _ _ h

/-- After `UnexpectedEof` on a device without failures everything up to the end has been consumed. -/
theorem Dev.readExactAux_eof (fuel n : Nat) (acc : Bytes) (d d' : Dev) (x : Err) (hd : d.NoFail)
    (h : Dev.readExactAux fuel n acc d = (.err x, d')) : d'.pos = max d.pos d.img.length := by
  induction fuel generalizing n acc d with
  | zero => cases h
  | succ fuel ih =>
    unfold Dev.readExactAux at h
    by_cases hn : n = 0
    · rw [if_pos hn] at h
      cases h
    rw [if_neg hn] at h
    obtain ⟨k, d1, e1, hk, hk0, himg, hpos, hnf, hs⟩ := Dev.read_ok n d hd
    rw [e1] at h
    have hlen : ((d.img.drop d.pos).take k).length = min k (d.img.length - d.pos) := by simp
    by_cases hb : ((d.img.drop d.pos).take k).length = 0
    · simp only [if_pos hb] at h
      cases h
      have := hk0 (by omega)
      rw [hpos, hb]
      omega
    · simp only [if_neg hb] at h
      rw [ih _ _ _ hnf h, himg, hpos, hlen]
      omega

/-! ### What one operation does -/

namespace SectorReader

variable {s : SectorReader}

theorem alignDown_le (s : SectorReader) (n : Nat) : s.alignDown n ≤ n := Nat.div_mul_le_self _ _

theorem alignDown_dvd (s : SectorReader) (n : Nat) : s.sectorSize ∣ s.alignDown n := ⟨_, Nat.mul_comm _ _⟩

/-- Aligning the end relative to the aligned start is aligning the end. -/
theorem alignDown_add (h : 0 < s.sectorSize) (p n : Nat) :
    s.alignDown p + s.alignDown (p - s.alignDown p + n) = s.alignDown (p + n) := by
  unfold alignDown
  have e : p - p / s.sectorSize * s.sectorSize = p % s.sectorSize := by
    have := Nat.div_add_mod p s.sectorSize
    rw [Nat.mul_comm] at this
    omega
  rw [e, ← Nat.add_mul]
  congr 1
  have : p + n = p % s.sectorSize + n + s.sectorSize * (p / s.sectorSize) := by
    have := Nat.div_add_mod p s.sectorSize
    omega
  rw [this, Nat.add_mul_div_left _ _ h, Nat.add_comm]

/-- The number of bytes that a read of `n` bytes at `p` takes from the inner reader. -/
def span (s : SectorReader) (p n : Nat) : Nat := s.alignDown (p - s.alignDown p + n) + s.sectorSize

theorem span_dvd (s : SectorReader) (p n : Nat) : s.sectorSize ∣ s.span p n :=
  (Nat.dvd_add_iff_left (Nat.dvd_refl _)).1 (s.alignDown_dvd _)

theorem lt_alignDown_add (h : 0 < s.sectorSize) (n : Nat) : n < s.alignDown n + s.sectorSize := by
  unfold alignDown
  have h1 := Nat.div_add_mod n s.sectorSize
  have h2 := Nat.mod_lt n h
  rw [Nat.mul_comm] at h1
  omega

theorem read_cases (n : Nat) (s : SectorReader) :
    ((read n s).2 = s ∧ (read n s).1 = .panic .overflow) ∨
    ((read n s).2.sectorSize = s.sectorSize ∧
      (read n s).2.inner = (Dev.readExact (s.span s.streamPosition n) s.inner).2 ∧
      (read n s).2.trace = s.trace ++ [.readExact s.inner.pos (s.span s.streamPosition n)]) := by
  unfold read
  dsimp only
  by_cases h1 : U64 ≤ s.streamPosition - s.alignDown s.streamPosition + n
  · rw [if_pos h1]; exact .inl ⟨rfl, rfl⟩
  rw [if_neg h1]
  unfold alignUp
  by_cases h2 : s.alignDown (s.streamPosition - s.alignDown s.streamPosition + n) + s.sectorSize < U64
  case neg => rw [if_neg h2]; exact .inl ⟨rfl, rfl⟩
  rw [if_pos h2]
  right
  show _ ∧ _ = (Dev.readExact (s.alignDown (s.streamPosition - s.alignDown s.streamPosition + n) +
    s.sectorSize) s.inner).2 ∧ _
  dsimp only
  generalize hq : Dev.readExact (s.alignDown (s.streamPosition - s.alignDown s.streamPosition + n) +
    s.sectorSize) s.inner = q
  obtain ⟨r, inner⟩ := q
  cases r with
  | err e => exact ⟨rfl, rfl, rfl⟩
  | panic p => exact ⟨rfl, rfl, rfl⟩
  | diverge => exact ⟨rfl, rfl, rfl⟩
  | ok b =>
    dsimp only
    by_cases h3 : U64 ≤ s.streamPosition + n
    · rw [if_pos h3]; exact ⟨rfl, rfl, rfl⟩
    rw [if_neg h3]
    cases idxRange b (s.streamPosition - s.alignDown s.streamPosition)
        (s.streamPosition - s.alignDown s.streamPosition + n) <;> exact ⟨rfl, rfl, rfl⟩

theorem seek_cases (pos : SeekFrom) (s : SectorReader) :
    ((seek pos s).2 = s) ∨
    (∃ n, (seek pos s).2.sectorSize = s.sectorSize ∧
      (seek pos s).2.inner = (Dev.seekStart (s.alignDown n) s.inner).2 ∧
      (seek pos s).2.trace = s.trace ++ [.seek (s.alignDown n)]) := by
  unfold seek
  cases ht : s.target pos with
  | none => exact .inl rfl
  | some o =>
    cases o with
    | none => exact .inl rfl
    | some n =>
      refine .inr ⟨n, ?_⟩
      dsimp only
      generalize hq : Dev.seekStart (s.alignDown n) s.inner = q
      obtain ⟨r, inner⟩ := q
      cases r <;> exact ⟨rfl, rfl, rfl⟩

/-- A read, in full. -/
theorem read_eq (n : Nat) (s : SectorReader) (hs : 0 < s.sectorSize)
    (h : s.alignDown (s.streamPosition - s.alignDown s.streamPosition + n) + s.sectorSize < U64)
    (h2 : s.streamPosition + n < U64) {b : Bytes} {inner : Dev}
    (hr : Dev.readExact (s.span s.streamPosition n) s.inner = (.ok b, inner))
    (hb : b.length = s.span s.streamPosition n) :
    read n s = (.ok ((b.drop (s.streamPosition - s.alignDown s.streamPosition)).take n),
      { s with inner, streamPosition := s.streamPosition + n,
               trace := s.trace ++ [.readExact s.inner.pos (s.span s.streamPosition n)] }) := by
  have hlt := lt_alignDown_add (s := s) hs (s.streamPosition - s.alignDown s.streamPosition + n)
  unfold read
  dsimp only
  rw [if_neg (by omega)]
  unfold alignUp
  rw [if_pos h]
  unfold span at hr hb ⊢
  dsimp only
  rw [hr]
  dsimp only
  rw [if_neg (by omega), idxRange_ok (by omega) (by omega)]
  dsimp only
  congr 2
  congr 1
  omega

/-- What a successful read tells, whatever the inner reader does. -/
theorem read_ok {n : Nat} {s s' : SectorReader} {out : Bytes} (hs : 0 < s.sectorSize)
    (h : read n s = (.ok out, s')) :
    out = (s.inner.img.drop (s.inner.pos + (s.streamPosition - s.alignDown s.streamPosition))).take n ∧
    out.length = n ∧ s'.streamPosition = s.streamPosition + n ∧ s'.inner.img = s.inner.img ∧
    s'.inner.pos = s.inner.pos + s.span s.streamPosition n ∧ s'.sectorSize = s.sectorSize := by
  by_cases h1 : U64 ≤ s.streamPosition - s.alignDown s.streamPosition + n
  · unfold read at h
    dsimp only at h
    rw [if_pos h1] at h
    cases h
  by_cases h2 : s.alignDown (s.streamPosition - s.alignDown s.streamPosition + n) + s.sectorSize < U64
  case neg =>
    unfold read at h
    dsimp only at h
    rw [if_neg h1] at h
    unfold alignUp at h
    rw [if_neg h2] at h
    cases h
  have hspan : s.span s.streamPosition n = s.alignDown (s.streamPosition - s.alignDown s.streamPosition + n) +
    s.sectorSize := rfl
  have hlt := lt_alignDown_add (s := s) hs (s.streamPosition - s.alignDown s.streamPosition + n)
  obtain ⟨d', himg, ⟨e, hlen⟩ | ⟨x, e⟩⟩ := Dev.readExact_any (s.span s.streamPosition n) s.inner
  case inr =>
    unfold read at h
    dsimp only at h
    rw [if_neg h1] at h
    unfold alignUp at h
    rw [if_pos h2] at h
    dsimp only at h
    rw [← hspan, e] at h
    cases h
  have hb : ((s.inner.img.drop s.inner.pos).take (s.span s.streamPosition n)).length =
      s.span s.streamPosition n := by
    simp only [List.length_take, List.length_drop]
    omega
  by_cases h3 : s.streamPosition + n < U64
  case neg =>
    unfold read at h
    dsimp only at h
    rw [if_neg h1] at h
    unfold alignUp at h
    rw [if_pos h2] at h
    dsimp only at h
    rw [← hspan, e] at h
    dsimp only at h
    rw [if_pos (by omega)] at h
    cases h
  rw [read_eq n s hs h2 h3 e hb] at h
  injection h with h4 h5
  injection h4 with h4
  obtain ⟨hp, hi⟩ := Dev.readExact_pos e
  subst h5
  refine ⟨?_, ?_, rfl, hi, hp, rfl⟩
  · rw [← h4, List.drop_take, List.take_take, List.drop_drop]
    congr 1
    omega
  · rw [← h4]
    simp only [List.length_take, List.length_drop]
    omega

/-- How far the inner reader is ahead of where the next read expects it. -/
def Ahead (s : SectorReader) (k : Nat) : Prop :=
  s.inner.pos = s.alignDown s.streamPosition + k * s.sectorSize

/-- A successful seek to `p`. -/
theorem seek_ok {pos : SeekFrom} {s s' : SectorReader} {p : Nat} (h : seek pos s = (.ok p, s')) :
    s'.streamPosition = p ∧ s'.Ahead 0 ∧ s'.inner.img = s.inner.img ∧ s'.sectorSize = s.sectorSize ∧
      s'.inner.sched = s.inner.sched.tail := by
  unfold seek at h
  cases ht : s.target pos with
  | none => rw [ht] at h; cases h
  | some o =>
    cases o with
    | none => rw [ht] at h; cases h
    | some n =>
      rw [ht] at h
      dsimp only at h
      rcases Dev.seekStart_cases (s.alignDown n) s.inner with ⟨d', e, e1, e2, e3⟩ | ⟨x, d', e, _⟩
      · rw [e] at h
        cases h
        refine ⟨rfl, ?_, e1, rfl, e3⟩
        unfold Ahead
        dsimp only
        rw [e2, Nat.zero_mul, Nat.add_zero]
        rfl
      · rw [e] at h; cases h

theorem Ahead.read {n k : Nat} {s s' : SectorReader} {out : Bytes} (hs : 0 < s.sectorSize)
    (hk : s.Ahead k) (h : SectorReader.read n s = (.ok out, s')) :
    out = Spec.part s.inner.img (s.streamPosition + k * s.sectorSize) n ∧ out.length = n ∧
      s'.streamPosition = s.streamPosition + n ∧ s'.Ahead (k + 1) ∧ s'.inner.img = s.inner.img ∧
      s'.sectorSize = s.sectorSize := by
  obtain ⟨h1, h2, h3, h4, h5, h6⟩ := read_ok hs h
  have hle := s.alignDown_le s.streamPosition
  unfold Ahead at hk
  refine ⟨?_, h2, h3, ?_, h4, h6⟩
  · rw [h1, hk]
    unfold Spec.part
    congr 2
    omega
  · have hadd := alignDown_add (s := s) hs s.streamPosition n
    have e1 : s'.alignDown (s.streamPosition + n) = s.alignDown (s.streamPosition + n) := by
      unfold alignDown; rw [h6]
    unfold Ahead
    rw [h3, h5, h6, e1, hk, ← hadd, Nat.add_mul]
    unfold span
    omega

end SectorReader

/-! ### The claims -/

open SectorReader

/-- The access is at a multiple of the sector size. -/
def Spec.AtSector (ss : Nat) : Access → Prop
  | .seek p => ss ∣ p
  | .readExact p _ => ss ∣ p

/-- If bytes are read, it is a positive multiple of the sector size. -/
def Spec.WholeSectors (ss : Nat) : Access → Prop
  | .seek p => ss ∣ p
  | .readExact _ n => ss ∣ n ∧ 0 < n

/-- The states after the operations of a history. -/
def SectorReader.history (s : SectorReader) (ops : List Op) : SectorReader := ops.foldl after s

theorem SectorReader.history_ind {P : SectorReader → Prop} (h : ∀ s op, P s → P (s.after op))
    (ops : List Op) : ∀ s, P s → P (s.history ops) := by
  induction ops with
  | nil => exact fun _ h => h
  | cons op ops ih => exact fun s hs => ih _ (h s op hs)

theorem SectorReader.new_ok {d : Dev} {ss : Nat} {s : SectorReader} (h : SectorReader.new d ss = .ok s) :
    s = ⟨d, ss, 0, []⟩ ∧ ∃ k < 64, ss = 2 ^ k := by
  unfold SectorReader.new at h
  split at h
  · rename_i hk
    cases h
    refine ⟨rfl, ?_⟩
    rw [List.any_eq_true] at hk
    obtain ⟨k, h1, h2⟩ := hk
    exact ⟨k, List.mem_range.1 h1, (by simpa using h2 : 2 ^ k = ss).symm⟩
  · cases h

/-- **C44**, creation: the sector size has to be a power of two. -/
theorem C44_new (d : Dev) (ss : Nat) :
    ((∃ k < 64, ss = 2 ^ k) → SectorReader.new d ss = .ok ⟨d, ss, 0, []⟩) ∧
    ((∀ k < 64, ss ≠ 2 ^ k) → SectorReader.new d ss = .err (.io (.other 0))) := by
  unfold SectorReader.new
  constructor
  · rintro ⟨k, hk, rfl⟩
    rw [if_pos]
    rw [List.any_eq_true]
    exact ⟨k, List.mem_range.2 hk, by simp⟩
  · intro h
    rw [if_neg]
    rw [List.any_eq_true]
    rintro ⟨k, h1, h2⟩
    exact h k (List.mem_range.1 h1) (by simpa using h2 : 2 ^ k = ss).symm

/-- **C44**, sizes: for every inner reader, whatever it answers, and every history, all seeks go to
multiples of the sector size and all reads are of whole sectors. -/
theorem C44_whole_sectors {d : Dev} {ss : Nat} {s : SectorReader} (h : SectorReader.new d ss = .ok s)
    (ops : List Op) : ∀ a ∈ (s.history ops).trace, Spec.WholeSectors ss a := by
  obtain ⟨rfl, k, _, hk⟩ := SectorReader.new_ok h
  have hpos : 0 < ss := by rw [hk]; exact Nat.two_pow_pos k
  suffices hi : (SectorReader.history ⟨d, ss, 0, []⟩ ops).sectorSize = ss ∧
      ∀ a ∈ (SectorReader.history ⟨d, ss, 0, []⟩ ops).trace, Spec.WholeSectors ss a from hi.2
  refine SectorReader.history_ind (P := fun s => s.sectorSize = ss ∧ ∀ a ∈ s.trace, Spec.WholeSectors ss a)
    ?_ ops _ ⟨rfl, by simp⟩
  rintro s op ⟨rfl, h2⟩
  cases op with
  | read n =>
    show (SectorReader.read n s).2.sectorSize = _ ∧ ∀ a ∈ (SectorReader.read n s).2.trace, _
    rcases read_cases n s with ⟨e, _⟩ | ⟨e1, _, e2⟩
    · rw [e]; exact ⟨rfl, h2⟩
    · rw [e1, e2]
      refine ⟨rfl, fun a ha => ?_⟩
      rcases List.mem_append.1 ha with ha | ha
      · exact h2 a ha
      · rw [List.mem_singleton.1 ha]
        refine ⟨s.span_dvd _ _, ?_⟩
        unfold span
        omega
  | seek p =>
    show (SectorReader.seek p s).2.sectorSize = _ ∧ ∀ a ∈ (SectorReader.seek p s).2.trace, _
    rcases seek_cases p s with e | ⟨n, e1, _, e2⟩
    · rw [e]; exact ⟨rfl, h2⟩
    · rw [e1, e2]
      refine ⟨rfl, fun a ha => ?_⟩
      rcases List.mem_append.1 ha with ha | ha
      · exact h2 a ha
      · rw [List.mem_singleton.1 ha]
        exact s.alignDown_dvd _

/-- **C44**, positions: if the inner reader holds whole sectors and never fails (it may deliver fewer
bytes than asked for, and reads may go beyond its end), then after every history all accesses were at
multiples of the sector size. Missing from the full claim: after a failed read the code goes on from
wherever the inner reader has been left. -/
theorem C44_positions_partial {d : Dev} {ss : Nat} {s : SectorReader} (h : SectorReader.new d ss = .ok s)
    (h0 : ss ∣ d.pos) (hlen : ss ∣ d.img.length) (hd : d.NoFail) (ops : List Op) :
    ∀ a ∈ (s.history ops).trace, Spec.AtSector ss a := by
  obtain ⟨rfl, k, _, hk⟩ := SectorReader.new_ok h
  have hpos : 0 < ss := by rw [hk]; exact Nat.two_pow_pos k
  let P : SectorReader → Prop := fun s => (s.sectorSize = ss ∧ ss ∣ s.inner.pos ∧ ss ∣ s.inner.img.length ∧
    s.inner.NoFail) ∧ ∀ a ∈ s.trace, Spec.AtSector ss a
  suffices hi : P (SectorReader.history ⟨d, ss, 0, []⟩ ops) from hi.2
  refine SectorReader.history_ind (P := P) ?_ ops _ ⟨⟨rfl, h0, hlen, hd⟩, by simp⟩
  rintro s op ⟨⟨rfl, g1, g2, g3⟩, h2⟩
  cases op with
  | read n =>
    show P (SectorReader.read n s).2
    rcases read_cases n s with ⟨e, _⟩ | ⟨e1, e3, e2⟩
    · rw [e]; exact ⟨⟨rfl, g1, g2, g3⟩, h2⟩
    · refine ⟨⟨e1, ?_⟩, ?_⟩
      · rw [e3]
        have hdv := s.span_dvd s.streamPosition n
        generalize s.span s.streamPosition n = m at hdv
        obtain ⟨d', e, e4, e5⟩ := Dev.readExact_noFail m s.inner g3
        refine ⟨?_, by rw [e]; rw [e4]; exact g2, by rw [e]; exact e5⟩
        by_cases hm : m = 0 ∨ s.inner.pos + m ≤ s.inner.img.length
        · rw [if_pos hm] at e
          rw [e, (Dev.readExact_pos e).1]
          exact (Nat.dvd_add_iff_right g1).1 hdv
        · rw [if_neg hm] at e
          rw [e, Dev.readExactAux_eof _ _ _ _ _ _ g3 e]
          rcases Nat.le_total s.inner.pos s.inner.img.length with hh | hh
          · rw [Nat.max_eq_right hh]; exact g2
          · rw [Nat.max_eq_left hh]; exact g1
      · rw [e2]
        intro a ha
        rcases List.mem_append.1 ha with ha | ha
        · exact h2 a ha
        · rw [List.mem_singleton.1 ha]
          exact g1
  | seek p =>
    show P (SectorReader.seek p s).2
    rcases seek_cases p s with e | ⟨n, e1, e3, e2⟩
    · rw [e]; exact ⟨⟨rfl, g1, g2, g3⟩, h2⟩
    · refine ⟨⟨e1, ?_⟩, ?_⟩
      · rw [e3]
        obtain ⟨d', e, e4, e5, e6⟩ := Dev.seekStart_ok (s.alignDown n) s.inner g3
        rw [e]
        exact ⟨by rw [e5]; exact s.alignDown_dvd _, by rw [e4]; exact g2, e6⟩
      · rw [e2]
        intro a ha
        rcases List.mem_append.1 ha with ha | ha
        · exact h2 a ha
        · rw [List.mem_singleton.1 ha]
          exact s.alignDown_dvd _

/-- Several reads directly after each other, all successful: `outs` are the delivered bytes. -/
inductive SectorReader.Reads : SectorReader → List Bytes → SectorReader → Prop
  | nil (s : SectorReader) : Reads s [] s
  | cons {s s1 s2 : SectorReader} {n : Nat} {out : Bytes} {outs : List Bytes}
      (h : SectorReader.read n s = (.ok out, s1)) (t : Reads s1 outs s2) : Reads s (out :: outs) s2

/-- The bytes of consecutive reads from `p`, where the k-th one comes from `k` sectors too far. -/
def Spec.Drifted (img : Bytes) (ss : Nat) : Nat → Nat → List Bytes → Prop
  | _, _, [] => True
  | p, k, out :: outs =>
    out = Spec.part img (p + k * ss) out.length ∧ Spec.Drifted img ss (p + out.length) (k + 1) outs

/-- **C44**, what reads deliver, for every inner reader and every number of reads after a seek to `p`:
the first one delivers the bytes at its position, and every further one without a seek those one more
sector behind its position. -/
theorem C44_drift {s s0 s' : SectorReader} {pos : SeekFrom} {p : Nat} (hs : 0 < s.sectorSize)
    (h : SectorReader.seek pos s = (.ok p, s0)) {outs : List Bytes} (hr : Reads s0 outs s') :
    Spec.Drifted s.inner.img s.sectorSize p 0 outs := by
  obtain ⟨h1, h2, h3, h4, _⟩ := seek_ok h
  suffices H : ∀ (s0 s' : SectorReader) (outs : List Bytes), Reads s0 outs s' → ∀ k, s0.Ahead k →
      0 < s0.sectorSize → Spec.Drifted s0.inner.img s0.sectorSize s0.streamPosition k outs by
    have := H s0 s' outs hr 0 h2 (by omega)
    rw [h1, h3, h4] at this
    exact this
  intro s0 s' outs hr
  induction hr with
  | nil s => intro _ _ _; trivial
  | @cons s s1 s2 n out outs h t ih =>
    intro k hk hs
    obtain ⟨g1, g2, g3, g4, g5, g6⟩ := hk.read hs h
    refine ⟨by rw [g2]; exact g1, ?_⟩
    have := ih (k + 1) g4 (by omega)
    rw [g3, g5, g6] at this
    rw [g2]
    exact this

/-- **C44**, the read directly after a seek: whatever the inner reader does, the bytes are the right
ones. -/
theorem C44_read_after_seek_partial {s s0 s' : SectorReader} {pos : SeekFrom} {p n : Nat} {out : Bytes}
    (hs : 0 < s.sectorSize) (h : SectorReader.seek pos s = (.ok p, s0))
    (hr : SectorReader.read n s0 = (.ok out, s')) :
    out = Spec.part s.inner.img p n ∧ out.length = n ∧ s'.streamPosition = p + n := by
  obtain ⟨h1, h2, h3, h4, _⟩ := seek_ok h
  obtain ⟨g1, g2, g3, _⟩ := h2.read (by omega) hr
  rw [h1, h3, Nat.zero_mul, Nat.add_zero] at g1
  exact ⟨g1, g2, by rw [g3, h1]⟩

/-- **C44**, when the read directly after a seek succeeds: on an inner reader without failures, exactly
if the inner reader has one more sector behind the last one that starts not behind the end of the read. -/
theorem C44_room {s s0 : SectorReader} {pos : SeekFrom} {p n : Nat}
    (hs : 0 < s.sectorSize) (h : SectorReader.seek pos s = (.ok p, s0)) (hd : s.inner.NoFail)
    (hu : p + n + s.sectorSize < U64) :
    let e := (p + n) / s.sectorSize * s.sectorSize + s.sectorSize
    (e ≤ s.inner.img.length → ∃ s', SectorReader.read n s0 = (.ok (Spec.part s.inner.img p n), s')) ∧
    (¬ e ≤ s.inner.img.length → ∃ s', SectorReader.read n s0 = (.err (.io .unexpectedEof), s')) := by
  obtain ⟨h1, h2, h3, h4, h5⟩ := seek_ok h
  have hd0 : s0.inner.NoFail := by
    intro x hx
    rw [h5] at hx
    exact hd x (List.mem_of_mem_tail hx)
  have hs0 : 0 < s0.sectorSize := by omega
  have hadd := alignDown_add (s := s0) hs0 p n
  have hle := s0.alignDown_le p
  have hle2 := s0.alignDown_le (p - s0.alignDown p + n)
  have hlt := lt_alignDown_add (s := s0) hs0 (p - s0.alignDown p + n)
  have hbound : s0.alignDown (s0.streamPosition - s0.alignDown s0.streamPosition + n) + s0.sectorSize < U64 := by
    rw [h1]; omega
  have he : (p + n) / s.sectorSize * s.sectorSize = s0.alignDown (p + n) := by
    unfold alignDown; rw [h4]
  obtain ⟨d', e, e4, e5⟩ := Dev.readExact_noFail (s0.span s0.streamPosition n) s0.inner hd0
  have hpos : s0.inner.pos = s0.alignDown p := by
    unfold Ahead at h2
    rw [h2, h1, Nat.zero_mul, Nat.add_zero]
  have hspan : s0.span s0.streamPosition n = s0.alignDown (p - s0.alignDown p + n) + s0.sectorSize := by
    unfold span; rw [h1]
  constructor
  · intro hroom
    rw [if_pos (.inr (by rw [hpos, hspan, h3]; omega))] at e
    have hb : ((s0.inner.img.drop s0.inner.pos).take (s0.span s0.streamPosition n)).length =
        s0.span s0.streamPosition n := by
      simp only [List.length_take, List.length_drop]
      rw [hpos, hspan, h3]
      omega
    have := read_eq n s0 hs0 hbound (by omega) e hb
    obtain ⟨g1, _⟩ := C44_read_after_seek_partial hs h this
    rw [g1] at this
    exact ⟨_, this⟩
  · intro hroom
    rw [if_neg (by rw [hpos, hspan, h3]; omega)] at e
    refine ⟨{ s0 with inner := d', trace := s0.trace ++ [.readExact s0.inner.pos (s0.span s0.streamPosition n)] }, ?_⟩
    · unfold SectorReader.read
      dsimp only
      rw [if_neg (by rw [h1]; omega)]
      unfold alignUp
      rw [if_pos hbound]
      dsimp only
      have hspan' : s0.alignDown (s0.streamPosition - s0.alignDown s0.streamPosition + n) + s0.sectorSize =
        s0.span s0.streamPosition n := rfl
      rw [hspan', e]

/-! ### The violations, and cases that meet the hypotheses -/

/-- **C44**, where a seek leads, for every state: from the start to the given position; relative to the
current position to the sum, or an error and no change if it does not fit into a `u64`; from the end never,
without any change. -/
theorem C44_seek (s : SectorReader) (hd : s.inner.NoFail) (hp : s.streamPosition < U64) :
    (∀ n, ∃ s', SectorReader.seek (.start n) s = (.ok n, s') ∧ s'.streamPosition = n) ∧
    (∀ n : Int, -2 ^ 63 ≤ n → n < 2 ^ 63 → ∀ t : Nat, (s.streamPosition : Int) + n = t → t < U64 →
      ∃ s', SectorReader.seek (.current n) s = (.ok t, s') ∧ s'.streamPosition = t) ∧
    (∀ n : Int, -2 ^ 63 ≤ n → n < 2 ^ 63 → (s.streamPosition : Int) + n < 0 ∨ (U64 : Int) ≤ s.streamPosition + n →
      SectorReader.seek (.current n) s = (.err (.io .invalidInput), s)) ∧
    (∀ n, SectorReader.seek (.end_ n) s = (.err (.io (.other 1)), s)) := by
  have key : ∀ pos t, s.target pos = some (some t) →
      ∃ s', SectorReader.seek pos s = (.ok t, s') ∧ s'.streamPosition = t := by
    intro pos t ht
    unfold SectorReader.seek
    rw [ht]
    dsimp only
    have hok : ∃ d', Dev.seekStart (s.alignDown t) s.inner = (.ok (), d') := by
      unfold Dev.seekStart
      cases hs : s.inner.sched with
      | nil => exact ⟨_, rfl⟩
      | cons r rs =>
        cases r with
        | chunk k => exact ⟨_, rfl⟩
        | fail e => exact absurd rfl (hd (.fail e) (by rw [hs]; exact List.mem_cons_self) e)
    obtain ⟨d', e⟩ := hok
    rw [e]
    exact ⟨_, rfl, rfl⟩
  refine ⟨fun n => key _ _ rfl, ?_, ?_, fun n => rfl⟩
  · intro n h1 h2 t ht hu
    refine key _ _ ?_
    unfold SectorReader.target
    dsimp only
    congr 1
    by_cases h0 : 0 ≤ n
    · rw [if_pos h0]
      unfold checkedAddU64
      rw [if_pos (by omega)]
      congr 1; omega
    · rw [if_neg h0]
      unfold checkedSub negAsU64
      rw [if_pos (by omega)]
      congr 1; omega
  · intro n h1 h2 ho
    have ht : s.target (.current n) = some none := by
      unfold SectorReader.target
      dsimp only
      congr 1
      by_cases h0 : 0 ≤ n
      · rw [if_pos h0]
        unfold checkedAddU64
        rw [if_neg (by omega)]
      · rw [if_neg h0]
        unfold checkedSub negAsU64
        rw [if_neg (by omega)]
    unfold SectorReader.seek
    rw [ht]

/-- Four sectors of four bytes. -/
def exSectors : SectorReader := ⟨⟨[0, 1, 2, 3, 4, 5, 6, 7, 8, 9, 10, 11, 12, 13, 14, 15], 0, []⟩, 4, 0, []⟩

example : exSectors.inner.NoFail ∧ exSectors.streamPosition < U64 :=
  ⟨(by intro r hr; cases hr), by decide⟩

/-- **C44** is violated: the second of two consecutive reads of two bytes delivers the bytes at 6, not
those at 2. -/
theorem C44_consecutive_negation : ∃ (s1 s2 : SectorReader),
    SectorReader.read 2 exSectors = (.ok [0, 1], s1) ∧ SectorReader.read 2 s1 = (.ok [6, 7], s2) ∧
      s1.streamPosition = 2 ∧ Spec.part exSectors.inner.img 2 2 = [2, 3] :=
  ⟨(SectorReader.read 2 exSectors).2, _, by decide, rfl, by decide, by decide⟩

/-- **C44** is violated: the last sector cannot be read, although it is there. -/
theorem C44_end_negation : ∃ s1 s2, SectorReader.seek (.start 12) exSectors = (.ok 12, s1) ∧
    SectorReader.read 4 s1 = (.err (.io .unexpectedEof), s2) ∧
    Spec.part exSectors.inner.img 12 4 = [12, 13, 14, 15] :=
  ⟨_, _, rfl, rfl, by decide⟩

/-- **C44** is violated: after a read that the inner reader has failed, the next access is not at a
sector. -/
theorem C44_failed_negation :
    let s : SectorReader := { exSectors with inner := ⟨exSectors.inner.img, 0, [.chunk 0, .fail (.other 5)]⟩ }
    ∃ s1 s2 out, SectorReader.read 2 s = (.err (.io (.other 5)), s1) ∧
      SectorReader.read 2 s1 = (.ok out, s2) ∧ ¬ ∀ a ∈ s2.trace, Spec.AtSector 4 a := by
  refine ⟨_, _, _, rfl, rfl, ?_⟩
  intro h
  have := h (.readExact 1 4) (by decide)
  revert this
  unfold Spec.AtSector
  decide

example : SectorReader.new exSectors.inner 4 = .ok exSectors :=
  (C44_new exSectors.inner 4).1 ⟨2, by decide, rfl⟩

example : ∃ s1 s2, SectorReader.seek (.start 5) exSectors = (.ok 5, s1) ∧
    SectorReader.read 3 s1 = (.ok [5, 6, 7], s2) ∧ s2.trace = [.seek 4, .readExact 4 8] :=
  ⟨_, _, rfl, rfl, rfl⟩

/-! ### The theorems of this file on that reader -/

theorem exSectors_new : SectorReader.new exSectors.inner 4 = .ok exSectors := (C44_new exSectors.inner 4).1 ⟨2, by decide, rfl⟩

example := C44_whole_sectors exSectors_new [.read 2, .seek (.start 5), .read 3]
example := C44_positions_partial exSectors_new (by decide) (by decide) (by intro r hr; cases hr)
  [.seek (.start 5), .read 3, .read 1]
example := C44_drift (s := exSectors) (pos := .start 1) (p := 1) (by decide) rfl (.cons (n := 2) rfl (.cons (n := 3) rfl (.nil _)))
example := C44_read_after_seek_partial (s := exSectors) (pos := .start 5) (p := 5) (n := 3) (by decide) rfl rfl
example := C44_room (s := exSectors) (pos := .start 5) (p := 5) (n := 3) (by decide) rfl (by intro r hr; cases hr) (by decide)
example := C44_seek exSectors (by intro r hr; cases hr) (by decide)

end NT
