import Verif.Lemmas.Prog
import Verif.Model.Reader
import Verif.Props.C44_SectorReader

/-! What one request to the stack `BufReader<SectorReader<File>>` answers. -/

namespace NT

namespace SectorReader

theorem read_result (n : Nat) (s : SectorReader) (hs : 0 < s.sectorSize) :
    (∃ x, (read n s).1 = .panic x) ∨
    (∃ e, (read n s).1 = .err e ∧ (Dev.readExact (s.span s.streamPosition n) s.inner).1 = .err e) ∨
    (∃ b, (read n s).1 = .ok b) := by
  by_cases h1 : U64 ≤ s.streamPosition - s.alignDown s.streamPosition + n
  · left
    unfold read
    dsimp only
    rw [if_pos h1]
    exact ⟨_, rfl⟩
  by_cases h2 : s.alignDown (s.streamPosition - s.alignDown s.streamPosition + n) + s.sectorSize < U64
  case neg =>
    left
    unfold read
    dsimp only
    rw [if_neg h1]
    unfold alignUp
    rw [if_neg h2]
    exact ⟨_, rfl⟩
  have hspan : s.span s.streamPosition n = s.alignDown (s.streamPosition - s.alignDown s.streamPosition + n) +
    s.sectorSize := rfl
  have hlt := lt_alignDown_add (s := s) hs (s.streamPosition - s.alignDown s.streamPosition + n)
  obtain ⟨d', himg, ⟨e, hlen⟩ | ⟨x, e⟩⟩ := Dev.readExact_any (s.span s.streamPosition n) s.inner
  case inr =>
    right; left
    unfold read
    dsimp only
    rw [if_neg h1]
    unfold alignUp
    rw [if_pos h2]
    dsimp only
    rw [← hspan, e]
    exact ⟨_, rfl, rfl⟩
  have hb : ((s.inner.img.drop s.inner.pos).take (s.span s.streamPosition n)).length =
      s.span s.streamPosition n := by
    simp only [List.length_take, List.length_drop]
    omega
  by_cases h3 : s.streamPosition + n < U64
  case neg =>
    left
    unfold read
    dsimp only
    rw [if_neg h1]
    unfold alignUp
    rw [if_pos h2]
    dsimp only
    rw [← hspan, e]
    dsimp only
    rw [if_pos (by omega)]
    exact ⟨_, rfl⟩
  right; right
  rw [read_eq n s hs h2 h3 e hb]
  exact ⟨_, rfl⟩

/-- What stays the same over a read. -/
theorem read_keeps (n : Nat) (s : SectorReader) :
    (read n s).2.sectorSize = s.sectorSize ∧ (read n s).2.inner.img = s.inner.img ∧
    (s.inner.Calm → (read n s).2.inner.Calm) ∧ (s.inner.NoFail → (read n s).2.inner.NoFail) := by
  rcases read_cases n s with ⟨h, _⟩ | ⟨h1, h2, _⟩
  · rw [h]; exact ⟨rfl, rfl, id, id⟩
  · refine ⟨h1, ?_, ?_, ?_⟩
    · rw [h2]
      obtain ⟨d', himg, ⟨e, _⟩ | ⟨x, e⟩⟩ := Dev.readExact_any (s.span s.streamPosition n) s.inner <;>
        rw [e] <;> exact himg
    · intro hc
      rw [h2]
      exact (Dev.readExact_quiet _ s.inner hc).2
    · intro hc
      rw [h2]
      obtain ⟨d', e, _, h⟩ := Dev.readExact_noFail (s.span s.streamPosition n) s.inner hc
      rw [e]
      exact h

end SectorReader

namespace BufSector

open SectorReader

/-- The stack reads this image, in sectors of this size. -/
structure Reads (img : Bytes) (ss : Nat) (s : BufSector) : Prop where
  img : s.inner.inner.img = img
  size : s.inner.sectorSize = ss
  calm : s.inner.inner.Calm

/-- The number of bytes that a request for `n` bytes takes from the `SectorReader`. -/
def fetched (n : Nat) : Nat := max n capacity

/-- After a seek. -/
structure At (img : Bytes) (ss p : Nat) (s : BufSector) : Prop extends s.Reads img ss where
  pos : s.inner.streamPosition = p
  ahead : s.inner.inner.pos = s.inner.alignDown p
  buf : s.buf = []

theorem seek_at {img : Bytes} {ss : Nat} {s : BufSector} (hs : s.Reads img ss) (p : Nat) :
    (∃ s', seek p s = (.ok (), s') ∧ s'.At img ss p ∧ (s.inner.inner.NoFail → s'.inner.inner.NoFail)) ∨
    (∃ e s', seek p s = (.err (.io e), s') ∧ e ≠ .interrupted ∧ s'.Reads img ss ∧ ¬ s.inner.inner.NoFail) := by
  have hseek : SectorReader.seek (.start p) s.inner =
      (match Dev.seekStart (s.inner.alignDown p) s.inner.inner with
       | (.ok _, inner) => (.ok p, { s.inner with inner, trace := s.inner.trace ++ [.seek (s.inner.alignDown p)], streamPosition := p })
       | (.err e, inner) => (.err e, { s.inner with inner, trace := s.inner.trace ++ [.seek (s.inner.alignDown p)] })
       | (.panic x, inner) => (.panic x, { s.inner with inner, trace := s.inner.trace ++ [.seek (s.inner.alignDown p)] })
       | (.diverge, inner) => (.diverge, { s.inner with inner, trace := s.inner.trace ++ [.seek (s.inner.alignDown p)] })) := rfl
  rcases Dev.seekStart_cases (s.inner.alignDown p) s.inner.inner with ⟨d', e, e1, e2, e3⟩ | ⟨x, d', e, e1, e2, e3⟩
  · left
    rw [e] at hseek
    refine ⟨⟨⟨d', s.inner.sectorSize, p, s.inner.trace ++ [.seek (s.inner.alignDown p)]⟩, []⟩, ?_, ?_, ?_⟩
    · unfold seek
      rw [hseek]
    · refine ⟨⟨by dsimp only; rw [e1, hs.img], hs.size, ?_⟩, rfl, e2, rfl⟩
      intro r hr
      dsimp only at hr
      rw [e3] at hr
      exact hs.calm r (List.mem_of_mem_tail hr)
    · intro hn r hr
      dsimp only at hr
      rw [e3] at hr
      exact hn r (List.mem_of_mem_tail hr)
  · right
    rw [e] at hseek
    refine ⟨x, ⟨⟨d', s.inner.sectorSize, s.inner.streamPosition,
      s.inner.trace ++ [.seek (s.inner.alignDown p)]⟩, s.buf⟩, ?_, ?_, ⟨?_, hs.size, ?_⟩, ?_⟩
    · unfold seek
      rw [hseek]
    · rintro rfl
      exact hs.calm _ (by rw [e3]; exact List.mem_cons_self) rfl
    · dsimp only; rw [e1, hs.img]
    · intro r hr
      dsimp only at hr
      exact hs.calm r (by rw [e3]; exact List.mem_cons_of_mem _ hr)
    · intro hn
      exact hn _ (by rw [e3]; exact List.mem_cons_self) x rfl

/-- A read after a seek takes one read of the `SectorReader`. -/
theorem read_at {img : Bytes} {ss p : Nat} {s : BufSector} (h0 : 0 < ss) (hs : s.At img ss p) (n : Nat) :
    ∃ s', read n s = ((SectorReader.read (fetched n) s.inner).1 >>= fun b => Res.ok (b.take n), s') ∧
      s'.inner = (SectorReader.read (fetched n) s.inner).2 := by
  by_cases hn : capacity ≤ n
  · have hf : fetched n = n := by unfold fetched; omega
    rw [hf]
    refine ⟨{ inner := (SectorReader.read n s.inner).2, buf := [] }, ?_, rfl⟩
    unfold read
    rw [if_pos ⟨hs.buf, hn⟩]
    congr 1
    cases hr : SectorReader.read n s.inner with
    | mk x i =>
      cases x with
      | ok b =>
        have := (SectorReader.read_ok (by rw [hs.size]; exact h0) hr).2.1
        show Res.ok b = Res.ok (b.take n)
        rw [← this, List.take_length]
      | err e => rfl
      | panic e => rfl
      | diverge => rfl
  · have hf : fetched n = capacity := by unfold fetched; omega
    unfold read
    rw [if_neg (by simp [hn]), hf]
    unfold fill
    rw [if_pos hs.buf]
    generalize SectorReader.read capacity s.inner = q
    obtain ⟨x, i⟩ := q
    cases x with
    | ok b => exact ⟨_, rfl, rfl⟩
    | err e => exact ⟨_, rfl, rfl⟩
    | panic e => exact ⟨_, rfl, rfl⟩
    | diverge => exact ⟨_, rfl, rfl⟩

/-- Everything that the request needs is in the image: whole sectors up to the end of what is fetched, and
one more. -/
def Fits (ss len p n : Nat) : Prop := (p + fetched n) / ss * ss + ss ≤ len

/-- What a read after a seek delivers. -/
theorem read_at_result {img : Bytes} {ss p : Nat} {s : BufSector} (h0 : 0 < ss) (hs : s.At img ss p) (n : Nat) :
    ∃ s', s'.Reads img ss ∧ (s.inner.inner.NoFail → s'.inner.inner.NoFail) ∧
      ((∃ x, read n s = (.panic x, s')) ∨
       (∃ e, read n s = (.err (.io e), s') ∧ e ≠ .interrupted) ∨
       (read n s = (.ok ((img.drop p).take n), s') ∧ ((img.drop p).take n).length = n)) := by
  obtain ⟨s', e1, e2⟩ := read_at h0 hs n
  obtain ⟨k1, k2, k3, k4⟩ := SectorReader.read_keeps (fetched n) s.inner
  have h0' : 0 < s.inner.sectorSize := by rw [hs.size]; exact h0
  refine ⟨s', ⟨by rw [e2, k2, hs.img], by rw [e2, k1, hs.size], by rw [e2]; exact k3 hs.calm⟩,
    fun h => by rw [e2]; exact k4 h, ?_⟩
  rcases SectorReader.read_result (fetched n) s.inner h0' with
    ⟨x, hx⟩ | ⟨e, hx, hy⟩ | ⟨b, hb⟩
  · left
    exact ⟨x, by rw [e1, hx]; rfl⟩
  · right; left
    obtain ⟨d', _, ⟨e3, _⟩ | ⟨x, e3⟩⟩ := Dev.readExact_any (s.inner.span s.inner.streamPosition (fetched n)) s.inner.inner
    · rw [e3] at hy; cases hy
    · have hq := (Dev.readExact_quiet (s.inner.span s.inner.streamPosition (fetched n)) s.inner.inner hs.calm).1
      rw [e3] at hy hq
      cases hy
      refine ⟨x, by rw [e1, hx]; rfl, ?_⟩
      rintro rfl
      exact hq rfl
  · right; right
    obtain ⟨g1, g2, -⟩ := SectorReader.read_ok h0' (n := fetched n) (out := b)
      (s' := (SectorReader.read (fetched n) s.inner).2) (by rw [← hb])
    have hp : s.inner.inner.pos + (s.inner.streamPosition - s.inner.alignDown s.inner.streamPosition) = p := by
      rw [hs.ahead, hs.pos]
      have := s.inner.alignDown_le p
      omega
    rw [hp, hs.img] at g1
    have hle : n ≤ fetched n := by unfold fetched; omega
    have hbt : b.take n = (img.drop p).take n := by
      rw [g1, List.take_take, Nat.min_eq_left hle]
    refine ⟨by rw [e1, hb]; show (Res.ok (b.take n), s') = _; rw [hbt], ?_⟩
    rw [← hbt, List.length_take, g2]
    omega

/-- What a read after a seek delivers if the file never fails. -/
theorem read_at_exact {img : Bytes} {ss p : Nat} {s : BufSector} (h0 : 0 < ss) (hs : s.At img ss p)
    (hf : s.inner.inner.NoFail) (hu : img.length < U64) (n : Nat) :
    (Fits ss img.length p n → (read n s).1 = .ok ((img.drop p).take n)) ∧
    (¬ Fits ss img.length p n → fetched n + 2 * ss ≤ U64 → (read n s).1 = .err (.io .unexpectedEof)) := by
  obtain ⟨s', e1, e2⟩ := read_at h0 hs n
  have hss := hs.size
  have h0' : 0 < s.inner.sectorSize := by rw [hss]; exact h0
  have hadd := alignDown_add (s := s.inner) h0' p (fetched n)
  have hle := s.inner.alignDown_le p
  have hle2 := s.inner.alignDown_le (p - s.inner.alignDown p + fetched n)
  have hlt := lt_alignDown_add (s := s.inner) h0' p
  have hlt2 := lt_alignDown_add (s := s.inner) h0' (p - s.inner.alignDown p + fetched n)
  have hfit : Fits ss img.length p n ↔ s.inner.alignDown (p + fetched n) + ss ≤ img.length := by
    unfold Fits alignDown
    rw [hss]
  obtain ⟨d', e3, _, _⟩ := Dev.readExact_noFail (s.inner.span s.inner.streamPosition (fetched n)) s.inner.inner hf
  rw [hs.ahead, hs.img] at e3
  have hspan : s.inner.span s.inner.streamPosition (fetched n) =
      s.inner.alignDown (p - s.inner.alignDown p + fetched n) + ss := by
    unfold span
    rw [hs.pos, hss]
  have hz : ¬ s.inner.span s.inner.streamPosition (fetched n) = 0 := by rw [hspan]; omega
  constructor
  · intro h
    rw [hfit] at h
    rw [if_pos (Or.inr (by rw [hspan]; omega))] at e3
    have hlen : ((img.drop (s.inner.alignDown p)).take (s.inner.span s.inner.streamPosition (fetched n))).length =
        s.inner.span s.inner.streamPosition (fetched n) := by
      rw [List.length_take, List.length_drop, hspan]
      omega
    have := SectorReader.read_eq (fetched n) s.inner h0' (by rw [hs.pos, hss]; omega)
      (by rw [hs.pos]; omega) e3 hlen
    rw [e1, this]
    show Res.ok _ = Res.ok _
    congr 1
    rw [hspan, hs.pos, List.drop_take, List.take_take, List.take_take, List.drop_drop]
    have hfn : n ≤ fetched n := by unfold fetched; omega
    congr 1
    · omega
    · congr 1
      omega
  · intro h hr
    rw [hfit] at h
    rw [if_neg (by rw [hspan]; omega)] at e3
    have : (SectorReader.read (fetched n) s.inner).1 = .err (.io .unexpectedEof) := by
      unfold SectorReader.read
      dsimp only
      rw [hs.pos, if_neg (by omega)]
      unfold alignUp
      rw [hss, if_pos (by omega)]
      dsimp only
      rw [← hspan, e3]
    rw [e1, this]
    rfl

/-- `read_exact` after a seek is one `read`. -/
theorem readExact_at {img : Bytes} {ss p : Nat} {s : BufSector} (h0 : 0 < ss) (hs : s.At img ss p) (n : Nat) :
    readExact n s = if n = 0 then (.ok [], s) else read n s := by
  unfold readExact
  rw [hs.buf]
  by_cases hn : n = 0
  · subst hn
    rw [if_pos (by simp), if_pos rfl]
    obtain ⟨i, b⟩ := s
    have := hs.buf
    dsimp only at this
    subst this
    rfl
  · rw [if_neg (by simp; omega), if_neg hn]
    obtain ⟨m, rfl⟩ : ∃ m, n = m + 1 := ⟨n - 1, by omega⟩
    unfold readExactLoop
    rw [if_neg hn]
    obtain ⟨s', _, _, ⟨x, e⟩ | ⟨x, e, hx⟩ | ⟨e, hl⟩⟩ := read_at_result h0 hs (m + 1)
    · rw [e]
    · rw [e]
      cases x <;> first | exact absurd rfl hx | rfl
    · rw [e]
      dsimp only
      rw [hl, if_neg hn, Nat.sub_self]
      unfold readExactLoop
      rw [if_pos rfl]
      rfl

/-- One request, whatever the file does. -/
theorem ask_result {img : Bytes} {ss : Nat} {s : BufSector} (h0 : 0 < ss) (hs : s.Reads img ss)
    (exact : Bool) (p n : Nat) :
    ∃ s', s'.Reads img ss ∧ (s.inner.inner.NoFail → s'.inner.inner.NoFail) ∧
      ((∃ x, ask exact p n s = (.panic x, s')) ∨
       (∃ e, ask exact p n s = (.err (.io e), s') ∧ e ≠ .interrupted) ∨
       (ask exact p n s = (.ok ((img.drop p).take n), s') ∧ ((img.drop p).take n).length = n)) := by
  unfold ask
  rcases seek_at hs p with ⟨s1, e1, hs1, hn1⟩ | ⟨e, s1, e1, he, hs1, hn1⟩
  · rw [StM.bind_of_ok e1]
    obtain ⟨s', k1, k2, k3⟩ := read_at_result h0 hs1 n
    cases exact with
    | false => exact ⟨s', k1, fun h => k2 (hn1 h), k3⟩
    | true =>
      rw [if_pos rfl, readExact_at h0 hs1]
      by_cases hn : n = 0
      · subst hn
        refine ⟨s1, hs1.toReads, hn1, .inr (.inr ⟨?_, by simp⟩)⟩
        rw [if_pos rfl]
        simp
      · rw [if_neg hn]
        exact ⟨s', k1, fun h => k2 (hn1 h), k3⟩
  · refine ⟨s1, hs1, fun h => absurd h hn1, .inr (.inl ⟨e, ?_, he⟩)⟩
    rw [StM.bind_of_err e1]

/-- One request over a file that never fails. -/
theorem ask_exact {img : Bytes} {ss : Nat} {s : BufSector} (h0 : 0 < ss) (hs : s.Reads img ss)
    (hf : s.inner.inner.NoFail) (hu : img.length < U64) (exact : Bool) (p n : Nat) :
    (exact = true ∧ n = 0 → (ask exact p n s).1 = .ok []) ∧
    (Fits ss img.length p n → (ask exact p n s).1 = .ok ((img.drop p).take n)) ∧
    (¬ (exact = true ∧ n = 0) → ¬ Fits ss img.length p n → fetched n + 2 * ss ≤ U64 →
      (ask exact p n s).1 = .err (.io .unexpectedEof)) := by
  unfold ask
  rcases seek_at hs p with ⟨s1, e1, hs1, hn1⟩ | ⟨e, s1, e1, he, hs1, hn1⟩
  case inr => exact absurd hf hn1
  rw [StM.bind_of_ok e1]
  obtain ⟨k1, k2⟩ := read_at_exact h0 hs1 (hn1 hf) hu n
  cases exact with
  | false => exact ⟨fun h => (by cases h.1), k1, fun _ => k2⟩
  | true =>
    rw [if_pos rfl, readExact_at h0 hs1]
    by_cases hn : n = 0
    · subst hn
      rw [if_pos rfl]
      exact ⟨fun _ => rfl, fun _ => by simp, fun h => absurd ⟨rfl, rfl⟩ h⟩
    · rw [if_neg hn]
      exact ⟨fun h => absurd h.2 hn, k1, fun _ => k2⟩

end BufSector

end NT
