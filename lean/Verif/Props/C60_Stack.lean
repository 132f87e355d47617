import Verif.Props.C60_Readers

/-! C60: the stack of readers of the shell, `BufReader<SectorReader<File>>`. -/

namespace NT

open Spec

theorem BufSector.new_ok (file : Dev) : BufSector.new file = .ok ⟨⟨file, 4096, 0, []⟩, []⟩ := by
  unfold BufSector.new
  rw [(C44_new file 4096).1 ⟨12, by decide, by decide⟩]
  rfl

/-- The stack that `main` sets up over a file, and what it has become after any number of requests. -/
def ShellReader (img : Bytes) (s : BufSector) : Prop := s.Reads img 4096 ∧ s.inner.inner.NoFail

theorem ShellReader.new {file : Dev} (hf : file.NoFail) {s : BufSector} (h : BufSector.new file = .ok s) :
    ShellReader file.img s := by
  rw [BufSector.new_ok] at h
  cases h
  exact ⟨⟨rfl, rfl, fun r hr => hf r hr _⟩, hf⟩

/-- **C60**, the stack of the shell keeps the promises of `Read + Seek` for each request of the library
(a seek followed by one read), whatever errors other than `Interrupted` the file has. (The `SectorReader`
alone does not keep them for reads without a seek in between: C44.) -/
theorem C60_stack_honest (img : Bytes) : Honest img BufSector.ask (fun s => s.Reads img 4096) := by
  intro s hs exact p n
  obtain ⟨s', h1, _, ⟨x, e⟩ | ⟨x, e, hx⟩ | ⟨e, hl⟩⟩ := BufSector.ask_result (by decide) hs exact p n
  · rw [e]; exact ⟨h1, trivial⟩
  · rw [e]; exact ⟨h1, x, rfl, hx⟩
  · rw [e]
    refine ⟨h1, by rw [hl], by rw [hl]; exact Nat.le_refl _, fun _ => hl, fun hn _ => ?_⟩
    rw [hl]; exact hn

/-- All the bytes that the stack reads for the request are in the image. `n = 0` with `read_exact` needs
none. -/
def Spec.Fits (len : Nat) (exact : Bool) (p n : Nat) : Prop :=
  (exact = true ∧ n = 0) ∨ (p + max n 8192) / 4096 * 4096 + 4096 ≤ len

/-- **C60**, one request to the stack over a file that never fails, in full: all bytes that are asked for
if the image has enough bytes behind them, else `UnexpectedEof`. -/
theorem C60_stack_request {img : Bytes} {s : BufSector} (hs : ShellReader img s) (hu : img.length < I63)
    (exact : Bool) (p n : Nat) (hn : n < I63) :
    ShellReader img (BufSector.ask exact p n s).2 ∧
    (Fits img.length exact p n → (BufSector.ask exact p n s).1 = .ok ((img.drop p).take n)) ∧
    (¬ Fits img.length exact p n → (BufSector.ask exact p n s).1 = .err (.io .unexpectedEof)) := by
  obtain ⟨k1, k2, k3⟩ := BufSector.ask_exact (by decide) hs.1 hs.2 (by omega) exact p n
  refine ⟨?_, ?_, ?_⟩
  · obtain ⟨s', h1, h2, ⟨x, e⟩ | ⟨x, e, hx⟩ | ⟨e, hl⟩⟩ := BufSector.ask_result (by decide) hs.1 exact p n <;>
      (rw [e]; exact ⟨h1, h2 hs.2⟩)
  · rintro (h | h)
    · rw [k1 h, h.2, List.take_zero]
    · exact k2 h
  · intro h
    refine k3 (fun h' => h (.inl h')) (fun h' => h (.inr h')) ?_
    unfold BufSector.fetched BufSector.capacity
    omega

/-- The requests over the stack: what is answered. -/
theorem Prog.asks_stack {β : Type} {img : Bytes} (hu : img.length < I63) (t : Prog β) (s : BufSector)
    (hs : ShellReader img s) (hn : ∀ a ∈ t.asks BufSector.ask s, a.2.2.1 < I63) :
    ShellReader img (t.run BufSector.ask s).2 ∧
    ∀ a ∈ t.asks BufSector.ask s,
      (Fits img.length a.1 a.2.1 a.2.2.1 → a.2.2.2 = .ok ((img.drop a.2.1).take a.2.2.1)) ∧
      (¬ Fits img.length a.1 a.2.1 a.2.2.1 → a.2.2.2 = .err (.io .unexpectedEof)) := by
  induction t generalizing s with
  | done b => exact ⟨hs, fun a ha => by cases ha⟩
  | ask e p n k ih =>
    obtain ⟨h1, h2, h3⟩ := C60_stack_request hs hu e p n (hn _ List.mem_cons_self)
    obtain ⟨g1, g2⟩ := ih _ _ h1 (fun a ha => hn a (List.mem_cons_of_mem _ ha))
    refine ⟨g1, fun a ha => ?_⟩
    rcases List.mem_cons.1 ha with rfl | ha
    · exact ⟨h2, h3⟩
    · exact g2 a ha

/-- **C60**, any operation over the stack of the shell and a file that never fails: it has the result that
it has over a plain device with the same bytes, or it reports `UnexpectedEof`. The second is possible only
if one of its requests does not fit. -/
theorem C60_stack {α : Type} {img : Bytes} (hu : img.length < I63) {t : Prog (Res α)} {p : StM Dev α}
    (ht : Implements t p) (hp : SameOrReports p) (s : BufSector) (hs : ShellReader img s)
    (hn : ∀ a ∈ t.asks BufSector.ask s, a.2.2.1 < I63) :
    ShellReader img (t.run BufSector.ask s).2 ∧
    ((∃ d : Dev, d.Ok img ∧ (t.run BufSector.ask s).1 = (p d).1) ∨
     ((t.run BufSector.ask s).1 = .err (.io .unexpectedEof) ∧
      ∃ a ∈ t.asks BufSector.ask s, ¬ Fits img.length a.1 a.2.1 a.2.2.1)) := by
  obtain ⟨g1, g2⟩ := t.asks_stack hu s hs hn
  refine ⟨g1, ?_⟩
  have np : ∀ a ∈ t.asks BufSector.ask s, ∀ x, a.2.2.2 ≠ .panic x := by
    intro a ha x hx
    by_cases hf : Fits img.length a.1 a.2.1 a.2.2.1
    · rw [(g2 a ha).1 hf] at hx; cases hx
    · rw [(g2 a ha).2 hf] at hx; cases hx
  rcases C60_same_or_reports (C60_stack_honest img) ht hp s hs.1 np with ⟨e, h1, a, ha, h2⟩ | h
  · right
    by_cases hf : Fits img.length a.1 a.2.1 a.2.2.1
    · rw [(g2 a ha).1 hf] at h2; cases h2
    · have := (g2 a ha).2 hf
      rw [h2] at this
      injection this with this
      rw [h1, this]
      exact ⟨rfl, a, ha, hf⟩
  · exact .inl h

/-- **C60**, if the image goes on for 12288 bytes behind everything that is asked for, the stack is
transparent. -/
theorem C60_stack_padded {α : Type} {img : Bytes} (hu : img.length < I63) {t : Prog (Res α)} {p : StM Dev α}
    (ht : Implements t p) (hp : SameOrReports p) (s : BufSector) (hs : ShellReader img s)
    (hn : ∀ a ∈ t.asks BufSector.ask s, a.2.1 + a.2.2.1 + 12288 ≤ img.length) :
    ∃ d : Dev, d.Ok img ∧ (t.run BufSector.ask s).1 = (p d).1 := by
  rcases (C60_stack hu ht hp s hs (fun a ha => by have := hn a ha; omega)).2 with h | ⟨_, a, ha, h⟩
  · exact h
  · exfalso
    apply h
    unfold Spec.Fits
    refine Or.inr ?_
    have h1 := hn a ha
    have h2 := Nat.div_mul_le_self (a.2.1 + max a.2.2.1 8192) 4096
    have h3 : max a.2.2.1 8192 ≤ a.2.2.1 + 8192 := by omega
    generalize (a.2.1 + max a.2.2.1 8192) / 4096 * 4096 = x at h2 ⊢
    exact Nat.le_trans (by omega : x + 4096 ≤ a.2.1 + a.2.2.1 + 12288) h1

/-! ### C61: the end of the image

The full claim, that the shell can read every byte of a volume, is false (`C61_negation`,
`C61_end_negation`). The `_partial` theorems say exactly which reads succeed. -/

theorem Ntfs.newProg_implements : Implements Ntfs.newProg Ntfs.new := by
  intro d _
  show (do Dev.seekStart 0; let bytes ← Dev.readExact 512; StM.lift (Ntfs.ofBoot (Boot.parse bytes)) : StM Dev Ntfs) d
    = ((Dev.ask true 0 512 d).1 >>= fun bytes => Ntfs.ofBoot (Boot.parse bytes), (Dev.ask true 0 512 d).2)
  unfold Dev.ask
  rw [StM.bind_apply, StM.bind_apply]
  generalize Dev.seekStart 0 d = q
  obtain ⟨x, d1⟩ := q
  cases x with
  | ok u =>
    dsimp only
    rw [if_pos rfl, StM.bind_apply]
    generalize Dev.readExact 512 d1 = q
    obtain ⟨x, d2⟩ := q
    cases x <;> rfl
  | err e => rfl
  | panic e => rfl
  | diverge => rfl

theorem DataRun.readProg_implements (r : DataRun) (buf : Bytes) :
    Implements (r.readProg buf) fun d =>
      (((r.read buf d).1, (r.read buf d).2.1, (r.read buf d).2.2.1), (r.read buf d).2.2.2) := by
  intro d _
  unfold DataRun.readProg DataRun.read
  dsimp only
  by_cases h0 : r.remainingLen = 0
  · rw [if_pos h0, if_pos h0]; rfl
  rw [if_neg h0, if_neg h0]
  cases hp : r.position with
  | none => rfl
  | some p =>
    dsimp only
    by_cases hu : p + r.streamPosition < U64
    case neg => rw [if_neg hu, if_neg hu]; rfl
    rw [if_pos hu, if_pos hu]
    rw [Prog.run]
    unfold Dev.ask
    rw [StM.bind_apply]
    generalize Dev.seekStart (p + r.streamPosition) d = q
    obtain ⟨x, d1⟩ := q
    cases x with
    | ok u =>
      dsimp only
      rw [if_neg (by decide)]
      generalize Dev.read (min buf.length r.remainingLen) d1 = q
      obtain ⟨x, d2⟩ := q
      cases x <;> rfl
    | err e => rfl
    | panic e => rfl
    | diverge => rfl

/-- **C61**, opening a volume through the stack, in full: as over a plain device if the image has at least
12288 bytes, else `UnexpectedEof`, although the boot sector has only 512. -/
theorem C61_open_partial {img : Bytes} (hu : img.length < I63) (s : BufSector) (hs : ShellReader img s) :
    (12288 ≤ img.length → (Ntfs.newProg.run BufSector.ask s).1 = Ntfs.ofBoot (Boot.parse (img.take 512))) ∧
    (img.length < 12288 → (Ntfs.newProg.run BufSector.ask s).1 = .err (.io .unexpectedEof)) := by
  obtain ⟨_, h2, h3⟩ := C60_stack_request hs hu true 0 512 (by decide)
  have e : (Ntfs.newProg.run BufSector.ask s).1 =
      ((BufSector.ask true 0 512 s).1 >>= fun bytes => Ntfs.ofBoot (Boot.parse bytes)) := rfl
  rw [e]
  constructor
  · intro h
    rw [h2 (Or.inr h)]
    rfl
  · intro h
    rw [h3 (by rintro (⟨_, h'⟩ | h'); · cases h'
               · exact absurd (Nat.lt_of_lt_of_le h h') (Nat.lt_irrefl _))]
    rfl

/-- So the stack is not transparent: there is a volume that can be opened through every plain device, and
not by the shell. -/
theorem C61_negation : ∃ img : Bytes, (∀ d : Dev, d.Ok img → ∃ n, (Ntfs.new d).1 = .ok n) ∧
    ∀ s, ShellReader img s → (Ntfs.newProg.run BufSector.ask s).1 = .err (.io .unexpectedEof) := by
  refine ⟨exampleBoot, fun d hd => ?_, fun s hs => ?_⟩
  · obtain ⟨d', h, _⟩ := Ntfs.new_ok exampleBoot_ok d hd
    exact ⟨_, by rw [h]⟩
  · exact (C61_open_partial (by decide +kernel) s hs).2 (by decide +kernel)

/-- **C61**, the data of files, in full: a read from a data run through the stack delivers everything that
was asked for (up to the end of the run) if the image goes on far enough behind it; if not, it delivers
nothing at all, even the bytes that are in the image. -/
theorem C61_run_partial {img : Bytes} (hu : img.length < I63) (s : BufSector) (hs : ShellReader img s)
    (r : DataRun) (p : Nat) (hp : r.position = some p) (buf : Bytes) (h0 : 0 < r.remainingLen)
    (hpu : p + r.streamPosition < U64) (hb : buf.length < I63) :
    ((p + r.streamPosition + max (min buf.length r.remainingLen) 8192) / 4096 * 4096 + 4096 ≤ img.length →
      ((r.readProg buf).run BufSector.ask s).1 =
        (.ok (min buf.length r.remainingLen),
          { r with streamPosition := r.streamPosition + min buf.length r.remainingLen },
          overwrite buf 0 ((img.drop (p + r.streamPosition)).take (min buf.length r.remainingLen)))) ∧
    (¬ (p + r.streamPosition + max (min buf.length r.remainingLen) 8192) / 4096 * 4096 + 4096 ≤ img.length →
      ((r.readProg buf).run BufSector.ask s).1 = (.err (.io .unexpectedEof), r, buf)) := by
  obtain ⟨_, h2, h3⟩ := C60_stack_request hs hu false (p + r.streamPosition) (min buf.length r.remainingLen)
    (by omega)
  unfold DataRun.readProg
  rw [if_neg (by omega)]
  dsimp only
  rw [hp]
  dsimp only
  rw [if_pos hpu]
  unfold Prog.run
  constructor
  · intro h
    rw [h2 (.inr h)]
    have hl : ((img.drop (p + r.streamPosition)).take (min buf.length r.remainingLen)).length =
        min buf.length r.remainingLen := by
      have := Nat.lt_div_mul_add (a := p + r.streamPosition + max (min buf.length r.remainingLen) 8192)
        (b := 4096) (by decide)
      rw [List.length_take, List.length_drop]
      omega
    dsimp only
    rw [hl]
    obtain ⟨a, b, c⟩ := r
    dsimp only at hp
    subst hp
    rfl
  · intro h
    rw [h3 (by rintro (⟨h', _⟩ | h'); · cases h'
               · exact h h')]
    rfl

/-- So the last 8192 bytes of a volume cannot be read by the shell, for every volume: each read from a data
run there reports `UnexpectedEof`, while over a plain device it delivers at least one byte. -/
theorem C61_end_negation {img : Bytes} (hu : img.length < I63) (r : DataRun) (p : Nat)
    (hp : r.position = some p) (buf : Bytes) (h0 : 0 < r.remainingLen) (hb : 0 < buf.length)
    (hb2 : buf.length < I63) (hin : p + r.streamPosition < img.length)
    (hend : img.length ≤ p + r.streamPosition + 8192) :
    (∀ s, ShellReader img s → ((r.readProg buf).run BufSector.ask s).1 = (.err (.io .unexpectedEof), r, buf)) ∧
    ∀ d : Dev, d.Ok img → ∃ k, 0 < k ∧ (r.read buf d).1 = .ok k := by
  constructor
  · intro s hs
    refine (C61_run_partial hu s hs r p hp buf h0 (by omega) hb2).2 fun h => ?_
    have := Nat.lt_div_mul_add (a := p + r.streamPosition + max (min buf.length r.remainingLen) 8192)
      (b := 4096) (by decide)
    omega
  · intro d hd
    unfold DataRun.read
    rw [if_neg (by omega)]
    dsimp only
    rw [hp]
    dsimp only
    rw [if_pos (by omega)]
    obtain ⟨d1, e1, i1, i2, i3⟩ := Dev.seekStart_ok (p + r.streamPosition) d hd.2
    rw [e1]
    dsimp only
    obtain ⟨k, d2, e2, j1, j2, -⟩ := Dev.read_ok (min buf.length r.remainingLen) d1 i3
    rw [e2]
    refine ⟨_, ?_, rfl⟩
    rw [i1, i2, hd.1, List.length_take, List.length_drop]
    have : k ≠ 0 := fun h => by have := j2 ; omega
    omega

end NT
