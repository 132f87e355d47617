import Verif.Props.C65_Splitting

/-! C61: reading in pieces through the stack of readers of the shell. -/

namespace NT

open Spec

/-- What a caller may do after a seek. -/
inductive Spec.Piece
  | exact (n : Nat)
  | some' (n : Nat)
  | position
  deriving DecidableEq

/-- What the caller gets. -/
inductive Spec.Got
  | bytes (b : Bytes)
  | at' (n : Nat)
  deriving DecidableEq

/-- The number of bytes that are asked for. -/
def Spec.Piece.size : Piece → Nat
  | .exact n => n
  | .some' n => n
  | .position => 0

/-- What is to be delivered for the pieces, one after another, from position `p` on. -/
def Spec.cut (img : Bytes) : Nat → List Piece → List Got
  | _, [] => []
  | p, .position :: ps => .at' p :: cut img p ps
  | p, .exact n :: ps => .bytes ((img.drop p).take n) :: cut img (p + n) ps
  | p, .some' n :: ps => .bytes ((img.drop p).take n) :: cut img (p + n) ps

/-- One piece through the stack. -/
def Spec.piece : Piece → StM BufSector Got
  | .exact n => do let b ← BufSector.readExact n; pure (.bytes b)
  | .some' n => do let b ← BufSector.read n; pure (.bytes b)
  | .position => do let n ← BufSector.position; pure (.at' n)

/-- All pieces through the stack, up to the first error. -/
def Spec.pieces : List Piece → StM BufSector (List Got)
  | [] => pure []
  | x :: ps => do
    let g ← piece x
    let gs ← pieces ps
    pure (g :: gs)

namespace BufSector

/-- The stack after a seek to `p` and the reading of `k` bytes, `k ≤ 8192`. -/
def Within (img : Bytes) (p k : Nat) (s : BufSector) : Prop :=
  s.inner.inner.NoFail ∧
  ((k = 0 ∧ s.At img 4096 p) ∨
   (0 < k ∧ s.Reads img 4096 ∧ s.inner.streamPosition = p + 8192 ∧ s.buf = ((img.drop p).take 8192).drop k))

theorem fetch_at {img : Bytes} {p : Nat} {s : BufSector} (hs : s.At img 4096 p) (hf : s.inner.inner.NoFail)
    (hu : img.length < U64) (hfit : (p + 8192) / 4096 * 4096 + 4096 ≤ img.length) :
    ∃ i, SectorReader.read 8192 s.inner = (.ok ((img.drop p).take 8192), i) ∧ i.streamPosition = p + 8192 ∧
      i.inner.NoFail ∧ i.inner.img = img ∧ i.sectorSize = 4096 ∧ i.inner.Calm := by
  have h := (read_at_exact (by decide) hs hf hu 8192).1 (by unfold Fits fetched capacity; rw [Nat.max_self]; exact hfit)
  have e : read 8192 s = ((SectorReader.read 8192 s.inner).1, { inner := (SectorReader.read 8192 s.inner).2, buf := [] }) := by
    unfold read
    rw [if_pos ⟨hs.buf, Nat.le_refl _⟩]
  rw [e] at h
  dsimp only at h
  obtain ⟨k1, k2, k3, k4⟩ := SectorReader.read_keeps 8192 s.inner
  have h' : SectorReader.read 8192 s.inner = (.ok ((img.drop p).take 8192), (SectorReader.read 8192 s.inner).2) := by
    rw [← h]
  refine ⟨(SectorReader.read 8192 s.inner).2, h', ?_, k4 hf, by rw [k2, hs.img], by rw [k1, hs.size],
    k3 hs.calm⟩
  rw [(SectorReader.read_ok (s := s.inner) (n := 8192) (by rw [hs.size]; decide) h').2.2.1, hs.pos]

/-- A read of `n` bytes, as long as no more than 8192 bytes are read in all. -/
theorem read_within {img : Bytes} {p k : Nat} {s : BufSector} (hs : Within img p k s) (hu : img.length < U64)
    (hfit : (p + 8192) / 4096 * 4096 + 4096 ≤ img.length) (n : Nat) (hn : 0 < n) (hk : k + n ≤ 8192) :
    ∃ s', read n s = (.ok ((img.drop (p + k)).take n), s') ∧ Within img p (k + n) s' := by
  obtain ⟨hf, ⟨rfl, hat⟩ | ⟨h0, hr, hp, hb⟩⟩ := hs
  · obtain ⟨i, e, e1, e2, e3, e4, e5⟩ := fetch_at hat hf hu hfit
    by_cases hc : n = 8192
    · subst hc
      refine ⟨⟨i, []⟩, ?_, e2, .inr ⟨by omega, ⟨e3, e4, e5⟩, e1, ?_⟩⟩
      · unfold read
        rw [if_pos ⟨hat.buf, Nat.le_refl _⟩]
        rw [e]
        rfl
      · dsimp only
        rw [Nat.zero_add, List.drop_eq_nil_of_le (List.length_take_le _ _)]
    · refine ⟨⟨i, ((img.drop p).take 8192).drop n⟩, ?_, e2, .inr ⟨by omega, ⟨e3, e4, e5⟩, e1, ?_⟩⟩
      · unfold read
        rw [if_neg (by unfold capacity; omega)]
        unfold fill
        rw [if_pos hat.buf, show capacity = 8192 from rfl, e]
        dsimp only
        rw [List.take_take, Nat.min_eq_left (by omega), Nat.add_zero]
      · dsimp only
        rw [Nat.zero_add]
  · have hlen : s.buf.length = 8192 - k := by
      rw [hb, List.length_drop, List.length_take, List.length_drop]
      omega
    have hne : s.buf ≠ [] := by
      intro h
      rw [h] at hlen
      simp at hlen
      omega
    refine ⟨⟨s.inner, s.buf.drop n⟩, ?_, hf, .inr ⟨by omega, ⟨hr.img, hr.size, hr.calm⟩, hp, ?_⟩⟩
    · unfold read
      rw [if_neg (fun h => hne h.1)]
      unfold fill
      rw [if_neg hne]
      dsimp only
      rw [hb, List.drop_take, List.drop_drop, List.take_take, Nat.min_eq_left (by omega)]
    · dsimp only
      rw [hb, List.drop_drop]

theorem readExact_within {img : Bytes} {p k : Nat} {s : BufSector} (hs : Within img p k s) (hu : img.length < U64)
    (hfit : (p + 8192) / 4096 * 4096 + 4096 ≤ img.length) (n : Nat) (hn : 0 < n) (hk : k + n ≤ 8192) :
    ∃ s', readExact n s = (.ok ((img.drop (p + k)).take n), s') ∧ Within img p (k + n) s' := by
  obtain ⟨s', e, hs'⟩ := read_within hs hu hfit n hn hk
  obtain ⟨hf, ⟨rfl, hat⟩ | ⟨h0, hr, hp, hb⟩⟩ := hs
  · refine ⟨s', ?_, hs'⟩
    rw [readExact_at (by decide) hat, if_neg (by omega), e]
  · have hlen : s.buf.length = 8192 - k := by
      rw [hb, List.length_drop, List.length_take, List.length_drop]
      omega
    refine ⟨⟨s.inner, s.buf.drop n⟩, ?_, hf, .inr ⟨by omega, ⟨hr.img, hr.size, hr.calm⟩, hp, ?_⟩⟩
    · unfold readExact
      rw [if_pos (by omega), hb, List.drop_take, List.drop_drop, List.take_take, Nat.min_eq_left (by omega)]
    · dsimp only
      rw [hb, List.drop_drop]

theorem tell {s : BufSector} (hs : s.inner.inner.NoFail) :
    ∀ q, s.inner.streamPosition = q → q < U64 → ∃ i, SectorReader.seek (.current 0) s.inner = (.ok q, i) ∧
      i.streamPosition = q ∧ i.inner.NoFail ∧ i.inner.img = s.inner.inner.img ∧ i.sectorSize = s.inner.sectorSize ∧
      i.inner.Calm ∧ i.inner.pos = i.alignDown q := by
  intro q hq hlt
  obtain ⟨d', e, g1, g2, g3⟩ := Dev.seekStart_ok (s.inner.alignDown q) s.inner.inner hs
  refine ⟨{ s.inner with inner := d', trace := s.inner.trace ++ [.seek (s.inner.alignDown q)], streamPosition := q },
    ?_, rfl, g3, g1, rfl, fun r hr => g3 r hr _, g2⟩
  have ht : s.inner.target (.current 0) = some (some q) := by
    unfold SectorReader.target checkedAddU64
    rw [hq]
    simp [hlt]
  unfold SectorReader.seek
  rw [ht]
  dsimp only
  rw [e]

theorem position_at {img : Bytes} {p : Nat} {s : BufSector} (hat : s.At img 4096 p) (hf : s.inner.inner.NoFail)
    (hp : p < U64) : ∃ s', position s = (.ok p, s') ∧ s'.inner.inner.NoFail ∧ s'.At img 4096 p := by
  obtain ⟨i, e, e1, e2, e3, e4, e5, e6⟩ := tell hf p hat.pos hp
  refine ⟨⟨i, s.buf⟩, ?_, e2, ⟨⟨by rw [e3, hat.img], by rw [e4, hat.size], e5⟩, e1, e6, hat.buf⟩⟩
  unfold position
  rw [e]
  dsimp only
  rw [hat.buf, List.length_nil, if_pos (Nat.zero_le _)]
  rfl

theorem position_within {img : Bytes} {p k : Nat} {s : BufSector} (hs : Within img p k s) (hu : img.length < U64)
    (hfit : (p + 8192) / 4096 * 4096 + 4096 ≤ img.length) (hk : k ≤ 8192) :
    ∃ s', position s = (.ok (p + k), s') ∧ Within img p k s' := by
  obtain ⟨hf, ⟨rfl, hat⟩ | ⟨h0, hr, hp, hb⟩⟩ := hs
  · obtain ⟨s', e, h1, h2⟩ := position_at hat hf (by omega)
    exact ⟨s', e, h1, .inl ⟨rfl, h2⟩⟩
  · obtain ⟨i, e, e1, e2, e3, e4, e5, e6⟩ := tell hf (p + 8192) hp (by omega)
    refine ⟨⟨i, s.buf⟩, ?_, e2, .inr ⟨h0, ⟨by rw [e3, hr.img], by rw [e4, hr.size], e5⟩, e1, hb⟩⟩
    have hlen : s.buf.length = 8192 - k := by
      rw [hb, List.length_drop, List.length_take, List.length_drop]
      omega
    unfold position
    rw [e]
    dsimp only
    rw [hlen, if_pos (by omega), show p + 8192 - (8192 - k) = p + k by omega]

end BufSector

theorem pieces_within {img : Bytes} (hu : img.length < U64) {p : Nat}
    (hfit : (p + 8192) / 4096 * 4096 + 4096 ≤ img.length) (ps : List Piece) :
    ∀ (k : Nat) (s : BufSector), BufSector.Within img p k s → (∀ x ∈ ps, x = .position ∨ 0 < x.size) →
      k + (ps.map Piece.size).sum ≤ 8192 → ∃ s', pieces ps s = (.ok (cut img (p + k) ps), s') := by
  induction ps with
  | nil => intro k s hs _ _; exact ⟨s, rfl⟩
  | cons x ps ih =>
    intro k s hs hx hk
    simp only [List.map_cons, List.sum_cons] at hk
    have step : ∃ g s', piece x s = (.ok g, s') ∧ BufSector.Within img p (k + x.size) s' ∧
        cut img (p + k) (x :: ps) = g :: cut img (p + (k + x.size)) ps := by
      cases x with
      | position =>
        obtain ⟨s', e, h⟩ := BufSector.position_within hs hu hfit (by omega)
        exact ⟨_, s', by rw [piece, StM.bind_of_ok e]; rfl, h, rfl⟩
      | exact n =>
        have hn : 0 < n := by rcases hx _ List.mem_cons_self with h | h; cases h; exact h
        obtain ⟨s', e, h⟩ := BufSector.readExact_within hs hu hfit n hn (by simp only [Piece.size] at hk; omega)
        exact ⟨_, s', by rw [piece, StM.bind_of_ok e]; rfl, h, by
          rw [cut, Nat.add_assoc]; rfl⟩
      | some' n =>
        have hn : 0 < n := by rcases hx _ List.mem_cons_self with h | h; cases h; exact h
        obtain ⟨s', e, h⟩ := BufSector.read_within hs hu hfit n hn (by simp only [Piece.size] at hk; omega)
        exact ⟨_, s', by rw [piece, StM.bind_of_ok e]; rfl, h, by
          rw [cut, Nat.add_assoc]; rfl⟩
    obtain ⟨g, s', e, h, ec⟩ := step
    obtain ⟨s2, e2⟩ := ih (k + x.size) s' h (fun y hy => hx y (List.mem_cons_of_mem _ hy)) (by omega)
    refine ⟨s2, ?_⟩
    rw [ec, pieces, StM.bind_of_ok e, StM.bind_of_ok e2]
    rfl

/-- **C61**, reading in pieces: after a seek, up to 8192 bytes can be read through the stack in pieces of any
sizes, with or without questions for the position in between. If the image goes on far enough, the pieces are
the consecutive parts of the image. Else the first piece fails, as a request for all of them at once would. -/
theorem C61_pieces {img : Bytes} (hu : img.length < I63) {s s1 : BufSector} (hs : ShellReader img s) {p : Nat}
    (hseek : BufSector.seek p s = (.ok (), s1)) (ps : List Piece) (hps : ∀ x ∈ ps, x = .position ∨ 0 < x.size)
    (hsum : (ps.map Piece.size).sum ≤ 8192) :
    ((p + 8192) / 4096 * 4096 + 4096 ≤ img.length → ∃ s', pieces ps s1 = (.ok (cut img p ps), s')) ∧
    (¬ (p + 8192) / 4096 * 4096 + 4096 ≤ img.length → p < U64 → (∃ x ∈ ps, x ≠ .position) →
      ∃ s', pieces ps s1 = (.err (.io .unexpectedEof), s')) := by
  have hat : s1.At img 4096 p ∧ s1.inner.inner.NoFail := by
    rcases BufSector.seek_at hs.1 p with ⟨s', e, h1, h2⟩ | ⟨e, s', h, _⟩
    · rw [e] at hseek
      cases hseek
      exact ⟨h1, h2 hs.2⟩
    · rw [h] at hseek; cases hseek
  constructor
  · intro hfit
    exact pieces_within (by omega) hfit ps 0 s1 ⟨hat.2, .inl ⟨rfl, hat.1⟩⟩ hps (by omega)
  · intro hfit hp hex
    clear hseek
    obtain ⟨hat, hf⟩ := hat
    have hbad : ∀ (s : BufSector) n, s.At img 4096 p → s.inner.inner.NoFail → n ≤ 8192 →
        (BufSector.read n s).1 = .err (.io .unexpectedEof) := by
      intro s n hat hf hn
      have hfe : BufSector.fetched n = 8192 := by unfold BufSector.fetched BufSector.capacity; omega
      exact (BufSector.read_at_exact (by decide) hat hf (by omega) n).2
        (by unfold BufSector.Fits; rw [hfe]; exact hfit) (by rw [hfe]; decide)
    clear hs
    induction ps generalizing s1 with
    | nil => obtain ⟨x, hx, _⟩ := hex; cases hx
    | cons x ps ih =>
      simp only [List.map_cons, List.sum_cons] at hsum
      cases x with
      | position =>
        obtain ⟨s', e, h1, h2⟩ := BufSector.position_at hat hf hp
        obtain ⟨x, hx, hne⟩ := hex
        obtain ⟨s2, this⟩ := ih (fun y hy => hps y (List.mem_cons_of_mem _ hy)) (by omega)
          ⟨x, by simpa [hne] using hx, hne⟩ h2 h1
        have e' : piece .position s1 = (.ok (.at' p), s') := by rw [piece, StM.bind_of_ok e]; rfl
        exact ⟨s2, by rw [pieces, StM.bind_of_ok e', StM.bind_of_err this]⟩
      | exact n =>
        have hn : 0 < n := by rcases hps _ List.mem_cons_self with h | h; cases h; exact h
        simp only [Piece.size] at hsum
        have h1 := hbad s1 n hat hf (by omega)
        have e : BufSector.readExact n s1 = (.err (.io .unexpectedEof), (BufSector.read n s1).2) := by
          rw [BufSector.readExact_at (by decide) hat, if_neg (by omega), ← h1]
        have e' : piece (.exact n) s1 = (.err (.io .unexpectedEof), (BufSector.read n s1).2) := by
          rw [piece, StM.bind_of_err e]
        exact ⟨_, by rw [pieces, StM.bind_of_err e']⟩
      | some' n =>
        simp only [Piece.size] at hsum
        have h1 := hbad s1 n hat hf (by omega)
        have e : BufSector.read n s1 = (.err (.io .unexpectedEof), (BufSector.read n s1).2) := by
          rw [← h1]
        have e' : piece (.some' n) s1 = (.err (.io .unexpectedEof), (BufSector.read n s1).2) := by
          rw [piece, StM.bind_of_err e]
        exact ⟨_, by rw [pieces, StM.bind_of_err e']⟩

/-- The bytes that have been delivered. -/
def Spec.joined : List Got → Bytes
  | [] => []
  | .bytes b :: gs => b ++ joined gs
  | .at' _ :: gs => joined gs

theorem cut_joined (img : Bytes) (ps : List Piece) (p : Nat) :
    joined (cut img p ps) = (img.drop p).take (ps.map Piece.size).sum := by
  have step : ∀ n k, (img.drop p).take n ++ (img.drop (p + n)).take k = (img.drop p).take (n + k) := by
    intro n k
    rw [List.take_add, List.drop_drop]
  induction ps generalizing p with
  | nil => simp [cut, joined]
  | cons x ps ih =>
    cases x with
    | position => rw [cut, joined, ih p step]; simp [Piece.size]
    | exact n =>
      rw [cut, joined, ih (p + n) (by intro a b; rw [List.take_add, List.drop_drop]), step]; rfl
    | some' n =>
      rw [cut, joined, ih (p + n) (by intro a b; rw [List.take_add, List.drop_drop]), step]; rfl

/-- **C61**: in whatever pieces up to 8192 bytes are read after a seek, the outcome is that of one request for
all of them. (This is why the model reads the boot sector with one request, where the code reads field by
field.) -/
theorem C61_as_one_request {img : Bytes} (hu : img.length < I63) {s s1 : BufSector} (hs : ShellReader img s) {p : Nat}
    (hp : p < U64) (hseek : BufSector.seek p s = (.ok (), s1)) (ps : List Piece)
    (hps : ∀ x ∈ ps, x = .position ∨ 0 < x.size) (hsum : (ps.map Piece.size).sum ≤ 8192)
    (hex : ∃ x ∈ ps, x ≠ .position) :
    ((pieces ps s1).1 >>= fun gs => Res.ok (joined gs)) = (BufSector.ask true p (ps.map Piece.size).sum s).1 := by
  have hpos : 0 < (ps.map Piece.size).sum := by
    obtain ⟨x, hx, hne⟩ := hex
    have h1 : 0 < x.size := by rcases hps x hx with h | h; exact absurd h hne; exact h
    have h2 : ∀ l : List Piece, x ∈ l → x.size ≤ (l.map Piece.size).sum := by
      intro l hl
      induction l with
      | nil => cases hl
      | cons y l ih =>
        rw [List.map_cons, List.sum_cons]
        rcases List.mem_cons.1 hl with rfl | hl
        · omega
        · have := ih hl; omega
    have := h2 ps hx
    omega
  obtain ⟨h1, h2⟩ := C61_pieces hu hs hseek ps hps hsum
  obtain ⟨_, k1, k2⟩ := C60_stack_request hs hu true p (ps.map Piece.size).sum (by omega)
  have hm : max (ps.map Piece.size).sum 8192 = 8192 := by omega
  by_cases hfit : (p + 8192) / 4096 * 4096 + 4096 ≤ img.length
  · obtain ⟨s', e⟩ := h1 hfit
    rw [k1 (.inr (by rw [hm]; exact hfit)), e]
    show Res.ok _ = Res.ok _
    rw [cut_joined]
  · obtain ⟨s', e⟩ := h2 hfit hp hex
    rw [k2 (by
      rintro (h | h)
      · omega
      · rw [hm] at h; exact hfit h), e]
    rfl

/-- The fields of the boot sector before the serial number, with a question for the position between them. -/
example (img : Bytes) (h : 12288 ≤ img.length) (hu : img.length < I63) (s s1 : BufSector) (hs : ShellReader img s)
    (hseek : BufSector.seek 0 s = (.ok (), s1)) :
    ∃ s', pieces [.exact 3, .exact 8, .position, .exact 2, .some' 1] s1 =
      (.ok [.bytes (img.take 3), .bytes ((img.drop 3).take 8), .at' 11, .bytes ((img.drop 11).take 2),
        .bytes ((img.drop 13).take 1)], s') :=
  (C61_pieces hu hs hseek _ (by decide) (by decide)).1 (by omega)

example (img : Bytes) (hu : img.length < I63) (s s1 : BufSector) (hs : ShellReader img s)
    (hseek : BufSector.seek 0 s = (.ok (), s1)) :=
  C61_as_one_request hu hs (by decide) hseek [.exact 3, .exact 8, .position, .exact 2, .some' 1] (by decide) (by decide)
    ⟨.exact 3, by simp, by simp⟩

end NT
