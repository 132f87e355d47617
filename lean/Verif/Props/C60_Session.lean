import Verif.Props.C60_Stack

/-! C60: a session of the shell over any reader, and over its own stack of readers. -/

namespace NT

open Spec

theorem Prog.run_inv {σ β : Type} {img : Bytes} {h : Bool → Nat → Nat → StM σ Bytes} {inv : σ → Prop}
    (hh : Honest img h inv) (t : Prog β) (s : σ) (hs : inv s) : inv (t.run h s).2 := by
  induction t generalizing s with
  | done b => exact hs
  | ask e p n k ih => exact ih _ _ (hh s hs e p n).1

/-- A request of the computation was answered with this error. -/
def Prog.Answered {σ β : Type} (h : Bool → Nat → Nat → StM σ Bytes) (t : Prog β) (s : σ) (e : IoErr) : Prop :=
  ∃ a ∈ t.asks h s, a.2.2.2 = .err (.io e)

/-- A request of the computation made the reader panic. -/
def Prog.Panicked {σ β : Type} (h : Bool → Nat → Nat → StM σ Bytes) (t : Prog β) (s : σ) : Prop :=
  ∃ a ∈ t.asks h s, ∃ x, a.2.2.2 = .panic x

/-- **C60**, from the bytes of the volume to the bytes of the file, over any honest reader: the shell starts
and `get` writes exactly the bytes of the stream, or an error of the reader is reported, and in `get` a
beginning of the bytes of the stream has been written before. -/
theorem C60_end_to_end {σ : Type} {img : Bytes} {h : Bool → Nat → Nat → StM σ Bytes} {inv : σ → Prop}
    (hh : Honest img h inv) {g : Geometry} (hb : BootSector img g) {U R F : View}
    (hUi : U.img = img) (hUn : U.ntfs = Ntfs.ofGeometry g) (hm : HasMft U) (hU : RecordOf U 10)
    {usteps upre upost : List Step} {p : Step} {ur : Res (Option AttrItem)} (hfl : Flattened U usteps ur)
    {tc : Bytes} (htc : tc.length = 131072) (ht : TableStored U usteps upre upost p tc 131072)
    (hRi : R.img = img) (hRn : R.ntfs = { Ntfs.ofGeometry g with upcaseTable := some (tableOf tc) })
    (hRe : R.mftEs = U.mftEs) (hR : RecordOf R 5)
    {rsteps : List Step} {t : Node} (hD : DirOf R rsteps t (tableOf tc))
    (arg : List Char) (hne : (splitStream arg).1 ≠ []) (hsl : (splitStream arg).1.head? ≠ some '/')
    {e : Ent} (he : Names (tableOf tc) t (utf16 (splitStream arg).1) e)
    (hF : RecordOf F (leNat e.head % 2 ^ 48)) (hFn : F.ntfs = R.ntfs) (hFb : F.base.ntfs = R.ntfs)
    (hFi : F.img = img) (hFe : F.mftEs = U.mftEs)
    {fsteps : List Step} {r : Res (Option AttrItem)} (hff : Flattened F fsteps r)
    {c : Bytes} {size : Nat} (hst : StreamOf F fsteps (utf16 (splitStream arg).2) c size)
    (exists' : List Char → Bool)
    (hex : exists' (outputName (splitStream arg).1 (splitStream arg).2) = false)
    (fuel : Nat) (hf1 : usteps.length < fuel) (hf2 : rsteps.length < fuel) (hf3 : t.entries + t.nodes ≤ fuel)
    (hf4 : fsteps.length < fuel) (hf5 : c.length < fuel)
    {t0 : Prog (Res Shell)} (h0 : Implements t0 (Shell.start fuel))
    {tg : Prog (Res (Except ShellMsg Nat) × Option (List Char × Bytes))}
    (hg : Implements tg fun d =>
      (((Shell.mk [R.base] [] R.ntfs).get arg exists' fuel d |>.1,
        ((Shell.mk [R.base] [] R.ntfs).get arg exists' fuel d).2.1),
        ((Shell.mk [R.base] [] R.ntfs).get arg exists' fuel d).2.2))
    (s : σ) (hs : inv s) (hn0 : ¬ t0.Panicked h s) (hng : ¬ tg.Panicked h (t0.run h s).2) :
    (∃ x, (t0.run h s).1 = .err (.io x) ∧ t0.Answered h s x) ∨
    ((t0.run h s).1 = .ok ⟨[R.base], [], R.ntfs⟩ ∧
      ((tg.run h (t0.run h s).2).1 =
        (.ok (.ok size), some (outputName (splitStream arg).1 (splitStream arg).2, c)) ∨
      (∃ x, (tg.run h (t0.run h s).2).1.1 = .err (.io x) ∧ tg.Answered h (t0.run h s).2 x) ∧
        ∃ b, (tg.run h (t0.run h s).2).1.2 = some (outputName (splitStream arg).1 (splitStream arg).2, b) ∧
          b <+: c)) := by
  have n0 : ∀ a ∈ t0.asks h s, ∀ x, a.2.2.2 ≠ .panic x := fun a ha x hx => hn0 ⟨a, ha, x, hx⟩
  have ng : ∀ a ∈ tg.asks h (t0.run h s).2, ∀ x, a.2.2.2 ≠ .panic x := fun a ha x hx => hng ⟨a, ha, x, hx⟩
  rcases C60_same_or_reports hh h0 (C54_shell.1 fuel) s hs n0 with ⟨x, h1, h2⟩ | ⟨d, hd, h1⟩
  · exact .inl ⟨x, h1, h2⟩
  obtain ⟨d1, e1, _⟩ := C59_start_partial hb hUi hUn hm hU hfl htc ht hRi hRn hRe hR fuel hf1 d hd
  right
  refine ⟨by rw [h1, e1], ?_⟩
  have htab : TableOk (tableOf tc) := by
    unfold TableOk tableOf
    rw [List.length_map, List.length_range]
  have hmF : HasMft F := hm.withTable (some (tableOf tc)) (by rw [hFn, hRn, hUn]) (by rw [hFi, hUi]) hFe
  have hup : R.ntfs.upcaseTable = some (tableOf tc) := by rw [hRn]
  have hget : ∀ d : Dev, d.Ok img → ∃ d', (Shell.mk [R.base] [] R.ntfs).get arg exists' fuel d =
      (.ok (.ok size), some (outputName (splitStream arg).1 (splitStream arg).2, c), d') := by
    intro d hd
    obtain ⟨d2, e2, hd2⟩ := C59_by_name ⟨[R.base], [], R.ntfs⟩ rfl hD hup htab (splitStream arg).1
      hne hsl he hF hmF hFn (by rw [hFi, hRi]) fuel hf2 hf3 d (by rw [hRi]; exact hd)
    obtain ⟨d3, e3, _⟩ := C59_get ⟨[R.base], [], R.ntfs⟩ arg exists' hex fuel d d2
      (by rw [hFi, ← hRi]; exact hd2) e2 hff (fun _ => ⟨_, by rw [hFb, hup], htab⟩) hst hf4 hf5
    exact ⟨d3, e3⟩
  obtain ⟨d2, hd2, g1 | ⟨g1, name, b, b', g2, g3, g4⟩⟩ := C60_get hh ⟨[R.base], [], R.ntfs⟩ arg exists' fuel hg
    (t0.run h s).2 (Prog.run_inv hh t0 s hs) ng
  · left
    obtain ⟨d', e'⟩ := hget d2 hd2
    rw [g1, e']
  · right
    obtain ⟨d', e'⟩ := hget d2 hd2
    rw [e'] at g3
    dsimp only at g3
    cases g3
    exact ⟨g1, b, g2, g4⟩

/-- A request of the computation does not fit into the image (with what the stack reads around it). -/
def Prog.Beyond {β : Type} (len : Nat) (t : Prog β) (s : BufSector) : Prop :=
  ∃ a ∈ t.asks BufSector.ask s, ¬ Fits len a.1 a.2.1 a.2.2.1

/-- A request of the computation is for `isize::MAX + 1` bytes or more. (No buffer in Rust is that long.) -/
def Prog.Huge {β : Type} (t : Prog β) (s : BufSector) : Prop := ∃ a ∈ t.asks BufSector.ask s, I63 ≤ a.2.2.1

/-- **C60**, the shell as `main` sets it up, over a file that never fails: starting it and getting a stream
writes exactly the bytes of the stream, unless a request comes too close to the end of the image; then
`UnexpectedEof` is reported. -/
theorem C60_shell {img : Bytes} (hu : img.length < I63) {g : Geometry} (hb : BootSector img g) {U R F : View}
    (hUi : U.img = img) (hUn : U.ntfs = Ntfs.ofGeometry g) (hm : HasMft U) (hU : RecordOf U 10)
    {usteps upre upost : List Step} {p : Step} {ur : Res (Option AttrItem)} (hfl : Flattened U usteps ur)
    {tc : Bytes} (htc : tc.length = 131072) (ht : TableStored U usteps upre upost p tc 131072)
    (hRi : R.img = img) (hRn : R.ntfs = { Ntfs.ofGeometry g with upcaseTable := some (tableOf tc) })
    (hRe : R.mftEs = U.mftEs) (hR : RecordOf R 5)
    {rsteps : List Step} {t : Node} (hD : DirOf R rsteps t (tableOf tc))
    (arg : List Char) (hne : (splitStream arg).1 ≠ []) (hsl : (splitStream arg).1.head? ≠ some '/')
    {e : Ent} (he : Names (tableOf tc) t (utf16 (splitStream arg).1) e)
    (hF : RecordOf F (leNat e.head % 2 ^ 48)) (hFn : F.ntfs = R.ntfs) (hFb : F.base.ntfs = R.ntfs)
    (hFi : F.img = img) (hFe : F.mftEs = U.mftEs)
    {fsteps : List Step} {r : Res (Option AttrItem)} (hff : Flattened F fsteps r)
    {c : Bytes} {size : Nat} (hst : StreamOf F fsteps (utf16 (splitStream arg).2) c size)
    (exists' : List Char → Bool)
    (hex : exists' (outputName (splitStream arg).1 (splitStream arg).2) = false)
    (fuel : Nat) (hf1 : usteps.length < fuel) (hf2 : rsteps.length < fuel) (hf3 : t.entries + t.nodes ≤ fuel)
    (hf4 : fsteps.length < fuel) (hf5 : c.length < fuel)
    {t0 : Prog (Res Shell)} (h0 : Implements t0 (Shell.start fuel))
    {tg : Prog (Res (Except ShellMsg Nat) × Option (List Char × Bytes))}
    (hg : Implements tg fun d =>
      (((Shell.mk [R.base] [] R.ntfs).get arg exists' fuel d |>.1,
        ((Shell.mk [R.base] [] R.ntfs).get arg exists' fuel d).2.1),
        ((Shell.mk [R.base] [] R.ntfs).get arg exists' fuel d).2.2))
    {file : Dev} (hfile : file.Ok img) {s : BufSector} (hs : BufSector.new file = .ok s) :
    t0.Huge s ∨ tg.Huge (t0.run BufSector.ask s).2 ∨
    ((t0.run BufSector.ask s).1 = .err (.io .unexpectedEof) ∧ t0.Beyond img.length s) ∨
    ((t0.run BufSector.ask s).1 = .ok ⟨[R.base], [], R.ntfs⟩ ∧
      ((tg.run BufSector.ask (t0.run BufSector.ask s).2).1 =
        (.ok (.ok size), some (outputName (splitStream arg).1 (splitStream arg).2, c)) ∨
      ((tg.run BufSector.ask (t0.run BufSector.ask s).2).1.1 = .err (.io .unexpectedEof) ∧
        tg.Beyond img.length (t0.run BufSector.ask s).2 ∧
        ∃ b, (tg.run BufSector.ask (t0.run BufSector.ask s).2).1.2 =
          some (outputName (splitStream arg).1 (splitStream arg).2, b) ∧ b <+: c))) := by
  by_cases hn0' : t0.Huge s
  · exact .inl hn0'
  by_cases hng' : tg.Huge (t0.run BufSector.ask s).2
  · exact .inr (.inl hng')
  right; right
  have hn0 : ∀ a ∈ t0.asks BufSector.ask s, a.2.2.1 < I63 := fun a ha =>
    Nat.lt_of_not_le fun h => hn0' ⟨a, ha, h⟩
  have hng : ∀ a ∈ tg.asks BufSector.ask (t0.run BufSector.ask s).2, a.2.2.1 < I63 := fun a ha =>
    Nat.lt_of_not_le fun h => hng' ⟨a, ha, h⟩
  have hs0 : ShellReader img s := by
    have := ShellReader.new hfile.2 hs
    rw [hfile.1] at this
    exact this
  obtain ⟨g1, g2⟩ := t0.asks_stack hu s hs0 hn0
  obtain ⟨_, g3⟩ := tg.asks_stack hu _ g1 hng
  have np : ∀ {β : Type} (t : Prog β) (s : BufSector), (∀ a ∈ t.asks BufSector.ask s,
      (Fits img.length a.1 a.2.1 a.2.2.1 → a.2.2.2 = .ok ((img.drop a.2.1).take a.2.2.1)) ∧
      (¬ Fits img.length a.1 a.2.1 a.2.2.1 → a.2.2.2 = .err (.io .unexpectedEof))) →
      ¬ t.Panicked BufSector.ask s ∧
      ∀ x, t.Answered BufSector.ask s x → x = .unexpectedEof ∧ t.Beyond img.length s := by
    intro β t s h
    refine ⟨?_, ?_⟩
    · rintro ⟨a, ha, x, hx⟩
      by_cases hf : Fits img.length a.1 a.2.1 a.2.2.1
      · rw [(h a ha).1 hf] at hx; cases hx
      · rw [(h a ha).2 hf] at hx; cases hx
    · rintro x ⟨a, ha, hx⟩
      by_cases hf : Fits img.length a.1 a.2.1 a.2.2.1
      · rw [(h a ha).1 hf] at hx; cases hx
      · rw [(h a ha).2 hf] at hx
        cases hx
        exact ⟨rfl, a, ha, hf⟩
  obtain ⟨n1, n2⟩ := np t0 s g2
  obtain ⟨n3, n4⟩ := np tg _ g3
  rcases C60_end_to_end (C60_stack_honest img) hb hUi hUn hm hU hfl htc ht hRi hRn hRe hR hD arg hne hsl he hF
    hFn hFb hFi hFe hff hst exists' hex fuel hf1 hf2 hf3 hf4 hf5 h0 hg s hs0.1 n1 n3 with
    ⟨x, k1, k2⟩ | ⟨k1, k2 | ⟨⟨x, k2, k3⟩, k4⟩⟩
  · obtain ⟨rfl, k3⟩ := n2 x k2
    exact .inl ⟨k1, k3⟩
  · exact .inr ⟨k1, .inl k2⟩
  · obtain ⟨rfl, k5⟩ := n4 x k3
    exact .inr ⟨k1, .inr ⟨k2, k5, k4⟩⟩

/-! ### Examples -/

/-- A reader over bytes in memory, that delivers as much as there is. -/
def memAsk (img : Bytes) (exact : Bool) (p n : Nat) : StM Unit Bytes := fun _ =>
  if exact = true ∧ img.length < p + n ∧ n ≠ 0 then (.err (.io .unexpectedEof), ())
  else (.ok ((img.drop p).take n), ())

theorem memAsk_honest (img : Bytes) : Honest img (memAsk img) (fun _ => True) := by
  intro s _ exact p n
  refine ⟨trivial, ?_⟩
  unfold memAsk
  by_cases h : exact = true ∧ img.length < p + n ∧ n ≠ 0
  · rw [if_pos h]; exact ⟨_, rfl, by decide⟩
  · rw [if_neg h]
    refine ⟨?_, ?_, ?_, ?_⟩
    · rw [List.length_take, ← List.take_eq_take_min]
    · rw [List.length_take]; omega
    · intro he
      rw [List.length_take, List.length_drop]
      by_cases h1 : img.length < p + n
      · have : n = 0 := Decidable.byContradiction fun h2 => h ⟨he, h1, h2⟩
        omega
      · omega
    · intro h1 h2
      rw [List.length_take, List.length_drop]
      omega

theorem memAsk_panicked {β : Type} (img : Bytes) (t : Prog β) (s : Unit) : ¬ t.Panicked (memAsk img) s := by
  rintro ⟨a, ha, x, hx⟩
  induction t generalizing s with
  | done b => cases ha
  | ask e p n k ih =>
    rcases List.mem_cons.1 ha with rfl | ha
    · dsimp only [memAsk] at hx
      split at hx <;> cases hx
    · exact ih _ _ ha

set_option maxRecDepth 20000 in
/-- The file "f" of the example volume, from memory. -/
example : ∃ (t0 : Prog (Res Shell)) (tg : Prog (Res (Except ShellMsg Nat) × Option (List Char × Bytes))),
    Implements t0 (Shell.start 2000) ∧
    ((∃ x, (t0.run (memAsk exDisk) ()).1 = .err (.io x)) ∨
     (tg.run (memAsk exDisk) ()).1 = (.ok (.ok 1100), some (['F'], exFileBytes)) ∨
     ∃ x, (tg.run (memAsk exDisk) ()).1.1 = .err (.io x)) := by
  obtain ⟨t0, h0⟩ := (Shell.start_rep 2000).prog
  obtain ⟨tg, hg⟩ := ((Shell.mk [exRoot.base] [] exRoot.ntfs).get_rep ['F'] (fun _ => false) 2000).prog3
  refine ⟨t0, tg, h0, ?_⟩
  have h := C60_end_to_end (memAsk_honest exDisk) (U := exUpcase) (R := exRoot) (F := exFile) exDisk_boot rfl rfl
    (exRec_hasMft _ _ _ _) (exRec_records none).2.1 exUpcase_flattened exDiskTable_length exUpcase_stored rfl
    (by rw [tableOf_exDiskTable]; rfl) rfl (exRec_records _).1
    (by rw [tableOf_exDiskTable]; exact exRoot_dir) ['F'] (by decide) (by decide)
    (by rw [tableOf_exDiskTable]; exact exNames_file) (exRec_records _).2.2.2 rfl rfl rfl rfl
    exFile_flattened exFile_unnamed (fun _ => false) rfl 2000 (by decide) (by decide) (by decide) (by decide)
    (by decide +kernel) h0 hg () trivial (memAsk_panicked _ _ _) (memAsk_panicked _ _ _)
  rcases h with ⟨x, h, _⟩ | ⟨_, h | ⟨⟨x, h, _⟩, _⟩⟩
  · exact .inl ⟨x, h⟩
  · exact .inr (.inl h)
  · exact .inr (.inr ⟨x, h⟩)

set_option maxRecDepth 20000 in
/-- The same through the stack of the shell: all hypotheses of `C60_shell` hold. -/
example : ∃ (t0 : Prog (Res Shell)) (tg : Prog (Res (Except ShellMsg Nat) × Option (List Char × Bytes)))
    (s : BufSector), Implements t0 (Shell.start 2000) ∧ BufSector.new ⟨exDisk, 0, []⟩ = .ok s ∧
    (t0.Huge s ∨ tg.Huge (t0.run BufSector.ask s).2 ∨
    ((t0.run BufSector.ask s).1 = .err (.io .unexpectedEof) ∨
     (tg.run BufSector.ask (t0.run BufSector.ask s).2).1 = (.ok (.ok 1100), some (['F'], exFileBytes)) ∨
     (tg.run BufSector.ask (t0.run BufSector.ask s).2).1.1 = .err (.io .unexpectedEof))) := by
  obtain ⟨t0, h0⟩ := (Shell.start_rep 2000).prog
  obtain ⟨tg, hg⟩ := ((Shell.mk [exRoot.base] [] exRoot.ntfs).get_rep ['F'] (fun _ => false) 2000).prog3
  refine ⟨t0, tg, _, h0, BufSector.new_ok _, ?_⟩
  have h := C60_shell (by rw [exDisk_length]; decide) (U := exUpcase) (R := exRoot) (F := exFile) exDisk_boot rfl rfl
    (exRec_hasMft _ _ _ _) (exRec_records none).2.1 exUpcase_flattened exDiskTable_length exUpcase_stored rfl
    (by rw [tableOf_exDiskTable]; rfl) rfl (exRec_records _).1
    (by rw [tableOf_exDiskTable]; exact exRoot_dir) ['F'] (by decide) (by decide)
    (by rw [tableOf_exDiskTable]; exact exNames_file) (exRec_records _).2.2.2 rfl rfl rfl rfl
    exFile_flattened exFile_unnamed (fun _ => false) rfl 2000 (by decide) (by decide) (by decide) (by decide)
    (by decide +kernel) h0 hg (file := ⟨exDisk, 0, []⟩) ⟨rfl, fun r hr => by cases hr⟩ (BufSector.new_ok _)
  rcases h with h | h | ⟨h, _⟩ | ⟨_, h | ⟨h, _⟩⟩
  · exact .inl h
  · exact .inr (.inl h)
  · exact .inr (.inr (.inl h))
  · exact .inr (.inr (.inr (.inl h)))
  · exact .inr (.inr (.inr (.inr h)))

theorem exDisk_reader : ShellReader exDisk ⟨⟨⟨exDisk, 0, []⟩, 4096, 0, []⟩, []⟩ :=
  ShellReader.new (file := ⟨exDisk, 0, []⟩) (fun r hr => by cases hr) (BufSector.new_ok _)

/-- The volume of the example can be opened through the stack, and the first cluster of the file "f" can be
read; the end of its table of characters, at the end of the volume, cannot. -/
example : (Ntfs.newProg.run BufSector.ask ⟨⟨⟨exDisk, 0, []⟩, 4096, 0, []⟩, []⟩).1 =
      Ntfs.ofBoot (Boot.parse (exDisk.take 512)) ∧
    (((DataRun.mk (some 3584) 512 0).readProg (List.replicate 100 0)).run BufSector.ask
        ⟨⟨⟨exDisk, 0, []⟩, 4096, 0, []⟩, []⟩).1 =
      (.ok 100, DataRun.mk (some 3584) 512 100, overwrite (List.replicate 100 0) 0 ((exDisk.drop 3584).take 100)) ∧
    (((DataRun.mk (some 4096) 131072 131000).readProg (List.replicate 100 0)).run BufSector.ask
        ⟨⟨⟨exDisk, 0, []⟩, 4096, 0, []⟩, []⟩).1 =
      (.err (.io .unexpectedEof), DataRun.mk (some 4096) 131072 131000, List.replicate 100 0) := by
  have hu : exDisk.length < I63 := by rw [exDisk_length]; decide
  refine ⟨(C61_open_partial hu _ exDisk_reader).1 (by rw [exDisk_length]; decide), ?_, ?_⟩
  · exact (C61_run_partial hu _ exDisk_reader (DataRun.mk (some 3584) 512 0) 3584 rfl (List.replicate 100 0)
      (by decide) (by decide) (by decide)).1 (by rw [exDisk_length]; decide)
  · exact (C61_end_negation hu (DataRun.mk (some 4096) 131072 131000) 4096 rfl (List.replicate 100 0) (by decide)
      (by decide) (by decide) (by rw [exDisk_length]; decide) (by rw [exDisk_length]; decide)).1 _ exDisk_reader

/-- The theorems about other readers, for opening a volume that is held in memory. -/
theorem exMem_asks (img : Bytes) : ∀ a ∈ Ntfs.newProg.asks (memAsk img) (), a = (true, 0, 512, (memAsk img true 0 512 ()).1) :=
  fun a ha => by simpa [Ntfs.newProg, Prog.asks] using ha

theorem exMem_ok : ∀ a ∈ Ntfs.newProg.asks (memAsk exDisk) (), ∃ b, a.2.2.2 = Res.ok b := by
  intro a ha
  rw [exMem_asks exDisk a ha]
  have := exDisk_length
  exact ⟨_, by simp [memAsk, this]; rfl⟩

theorem exMem_no_panic : ∀ a ∈ Ntfs.newProg.asks (memAsk exDisk) (), ∀ x, a.2.2.2 ≠ Res.panic x := by
  intro a ha x hx
  obtain ⟨b, hb⟩ := exMem_ok a ha
  rw [hb] at hx
  cases hx

example := C60_reader (memAsk_honest exDisk) Ntfs.newProg_implements () trivial exMem_no_panic 0
example := C60_reader_ok (memAsk_honest exDisk) Ntfs.newProg_implements () trivial exMem_ok
example := C60_same_or_reports (memAsk_honest exDisk) Ntfs.newProg_implements C54_volume.1 () trivial exMem_no_panic
/-- A shell without a current directory asks for nothing. -/
example (path : List Char) (n : Ntfs) := C60_dir (memAsk_honest exDisk) (Shell.mk [] path n) 3
  (t := .done (.panic .unwrap, [])) (fun _ _ => rfl) () trivial (by simp [Prog.asks])
/-- The file to be written exists already: `get` asks for nothing either. -/
example (sh : Shell) := C60_get (memAsk_honest exDisk) sh ['F'] (fun _ => true) 3
  (t := .done ((sh.get ['F'] (fun _ => true) 3 ⟨[], 0, []⟩).1, (sh.get ['F'] (fun _ => true) 3 ⟨[], 0, []⟩).2.1))
  (fun _ _ => rfl) () trivial (by simp [Prog.asks])
example := C60_stack_request exDisk_reader (by rw [exDisk_length]; decide) true 0 512 (by decide)
example := C60_stack (by rw [exDisk_length]; decide) Ntfs.newProg_implements C54_volume.1 _ exDisk_reader
  (by intro a ha; have : a = (true, 0, 512, (BufSector.ask true 0 512 ⟨⟨⟨exDisk, 0, []⟩, 4096, 0, []⟩, []⟩).1) := by simpa [Ntfs.newProg, Prog.asks] using ha
      subst this; decide)
example := C60_stack_padded (by rw [exDisk_length]; decide) Ntfs.newProg_implements C54_volume.1 _ exDisk_reader
  (by intro a ha; have : a = (true, 0, 512, (BufSector.ask true 0 512 ⟨⟨⟨exDisk, 0, []⟩, 4096, 0, []⟩, []⟩).1) := by simpa [Ntfs.newProg, Prog.asks] using ha
      subst this; rw [exDisk_length]; decide)

end NT
