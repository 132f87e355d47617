import Verif.Props.C60_Session

/-! C65: results do not depend on how a reader splits its answers, on its position, or on what was read
before. -/

namespace NT

open Spec

/-- The result is the same on all devices with the same contents that do not fail, whatever their position and
however they split what they deliver; and the device stays such a device. -/
def Spec.OneResult {β : Type} (f : Dev → β × Dev) : Prop :=
  ∀ img : Bytes, img.length < U64 → ∃ r, ∀ d : Dev, d.img = img → d.NoFail →
    (f d).1 = r ∧ (f d).2.img = img ∧ (f d).2.NoFail

theorem RepD.one {α : Type} {p : StM Dev α} (h : RepD p) : OneResult p := by
  intro img hi
  obtain ⟨r, hr⟩ := h.settled img hi
  refine ⟨r, fun d h1 h2 => ?_⟩
  obtain ⟨d', ⟨g1, g2⟩, g3⟩ := hr d ⟨h1, h2⟩
  rw [g3]
  exact ⟨rfl, g1, g2⟩

theorem RepS.one {σ α : Type} {p : StM (σ × Dev) α} (h : RepS p) (s : σ) : OneResult (onState p s) := by
  intro img hi
  obtain ⟨r, hr⟩ := (h s).settled img hi
  refine ⟨r, fun d h1 h2 => ?_⟩
  obtain ⟨d', ⟨g1, g2⟩, g3⟩ := hr d ⟨h1, h2⟩
  have e : p (s, d) = mk3 r d' := g3
  unfold onState
  rw [e]
  exact ⟨rfl, g1, g2⟩

theorem Rep.one3 {α τ : Type} {f : Dev → α × τ × Dev} (h : Rep mk3 f) :
    OneResult fun d => (((f d).1, (f d).2.1), (f d).2.2) := by
  intro img hi
  obtain ⟨r, hr⟩ := h.settled img hi
  refine ⟨r, fun d h1 h2 => ?_⟩
  obtain ⟨d', ⟨g1, g2⟩, g3⟩ := hr d ⟨h1, h2⟩
  dsimp only
  rw [g3]
  exact ⟨rfl, g1, g2⟩

/-- **C65**, every operation of the library and every command of the shell has one result, for all devices
with the same contents: no byte, no name, no error and no state of a value depends on the sizes of the pieces
in which a device delivers its data. (The results of `read` include the number of bytes read and the whole
buffer, so also how a caller's reads are cut is the same on all devices.) -/
theorem C65_results :
    OneResult Ntfs.new ∧
    (∀ n i, OneResult (Ntfs.file n i)) ∧
    (∀ n, OneResult (Ntfs.volumeInfo n)) ∧
    (∀ n, OneResult (Ntfs.volumeName n)) ∧
    (∀ n fuel, OneResult (Ntfs.readUpcaseTable n fuel)) ∧
    (∀ it, OneResult (onState Attrs.next it)) ∧
    (∀ l, OneResult (onState AttrList.next l)) ∧
    (∀ f asked fuel, OneResult (NFile.dataItem f asked fuel)) ∧
    (∀ f ns parent fuel, OneResult (NFile.fileName f ns parent fuel)) ∧
    (∀ f fuel, OneResult (NFile.directoryIndex f fuel)) ∧
    (∀ a, OneResult (Attr.value a)) ∧
    (∀ (v : Val) n, OneResult (onState (Val.readExactAttached n) v)) ∧
    (∀ (v : Val) (buf : Bytes), OneResult fun d =>
      (((v.read buf d).1, (v.read buf d).2.1, (v.read buf d).2.2.1), (v.read buf d).2.2.2)) ∧
    (∀ (v : Val) (pos : SeekFrom), OneResult fun d =>
      (((v.seek pos d).1, (v.seek pos d).2.1), (v.seek pos d).2.2)) ∧
    (∀ ix fuel it, OneResult (onState (IndexEntries.next ix fuel) it)) ∧
    (∀ ix n name fuel, OneResult (Index.findName ix n name fuel)) ∧
    (∀ fuel, OneResult (Shell.start fuel)) ∧
    (∀ s arg fuel, OneResult (Shell.cd s arg fuel)) ∧
    (∀ (s : Shell) fuel, OneResult fun d => (((s.dir fuel d).1, (s.dir fuel d).2.1), (s.dir fuel d).2.2)) ∧
    (∀ (s : Shell) arg exists' fuel, OneResult fun d =>
      (((s.get arg exists' fuel d).1, (s.get arg exists' fuel d).2.1), (s.get arg exists' fuel d).2.2)) ∧
    (∀ (s : Shell) arg fuel, OneResult fun d =>
      (((s.fileinfo arg fuel d).1, (s.fileinfo arg fuel d).2.1), (s.fileinfo arg fuel d).2.2)) ∧
    (∀ n : Ntfs, OneResult fun d => (((n.fsinfo d).1, (n.fsinfo d).2.1), (n.fsinfo d).2.2)) ∧
    (∀ (s : Shell) runs arg fuel, OneResult fun d =>
      (((s.attr runs arg fuel d).1, (s.attr runs arg fuel d).2.1), (s.attr runs arg fuel d).2.2)) := by
  refine ⟨Ntfs.new_rep.one, fun n i => (Ntfs.file_rep n i).one, fun n => (Ntfs.volumeInfo_rep n).one,
    fun n => (Ntfs.volumeName_rep n).one, fun n m => (Ntfs.readUpcaseTable_rep n m).one,
    fun it => Attrs.next_rep.one it, fun l => AttrList.next_rep.one l,
    fun f a n => (NFile.dataItem_rep f a n).one, fun f a b n => (NFile.fileName_rep f a b n).one,
    fun f n => (NFile.directoryIndex_rep f n).one, fun a => (Attr.value_rep a).one,
    fun v n => (Val.readExactAttached_rep n).one v, fun v buf => ?_,
    fun v pos => (Val.seek_rep v pos).one3, fun ix n it => (IndexEntries.next_rep ix n).one it,
    fun ix n name m => (Index.findName_rep ix n name m).one, fun n => (Shell.start_rep n).one,
    fun s a n => (Shell.cd_rep s a n).one, fun s n => (Shell.dir_rep s n).one3,
    fun s a x n => (Shell.get_rep s a x n).one3, fun s a n => (Shell.fileinfo_rep s a n).one3,
    fun n => (Ntfs.fsinfo_rep n).one3, fun s r a n => (Shell.attr_rep s r a n).one3⟩
  intro img hi
  obtain ⟨r, hr⟩ := (Val.read_rep v buf).settled img hi
  refine ⟨r, fun d h1 h2 => ?_⟩
  obtain ⟨d', ⟨g1, g2⟩, g3⟩ := hr d ⟨h1, h2⟩
  dsimp only
  have e : v.read buf d = mk4 r d' := g3
  rw [e]
  exact ⟨rfl, g1, g2⟩

/-- Two devices with the same contents that do not fail give the same result. -/
theorem Spec.OneResult.same {β : Type} {f : Dev → β × Dev} (hf : OneResult f) {d1 d2 : Dev} (h : d1.img = d2.img)
    (hu : d1.img.length < U64) (h1 : d1.NoFail) (h2 : d2.NoFail) : (f d1).1 = (f d2).1 := by
  obtain ⟨r, hr⟩ := hf _ hu
  rw [(hr d1 rfl h1).1, (hr d2 h.symm h2).1]

/-- **C65**, what was done with the reader before makes no difference to an operation. -/
theorem C65_history {β γ : Type} {f : Dev → β × Dev} {g : Dev → γ × Dev} (hf : OneResult f) (hg : OneResult g)
    (d : Dev) (hu : d.img.length < U64) (hd : d.NoFail) : (g (f d).2).1 = (g d).1 := by
  obtain ⟨_, hr⟩ := hf _ hu
  obtain ⟨_, h1, h2⟩ := hr d rfl hd
  exact hg.same h1 (by rw [h1]; exact hu) h2 hd

/-- **C65**, any reader: over a reader that keeps the promises of `Read + Seek` for the bytes `img`, whatever
state it has, an operation during which no request fails has the result that it has over the bytes
themselves. -/
theorem C65_reader {σ β : Type} {img : Bytes} {h : Bool → Nat → Nat → StM σ Bytes} {inv : σ → Prop}
    (hh : Honest img h inv) (hu : img.length < U64) {t : Prog β} {f : Dev → β × Dev} (ht : Implements t f)
    (hf : OneResult f) (s : σ) (hs : inv s) (hok : ∀ a ∈ t.asks h s, ∃ b, a.2.2.2 = .ok b) :
    (t.run h s).1 = (f ⟨img, 0, []⟩).1 := by
  obtain ⟨d, ⟨h1, h2⟩, h3⟩ := C60_reader_ok hh ht s hs hok
  rw [h3]
  exact hf.same (by exact h1) (by rw [h1]; exact hu) h2 (fun r hr => by cases hr)

/-- **C65**, two readers: over two readers for the same bytes, without failures, the results are the same. -/
theorem C65_two_readers {σ τ β : Type} {img : Bytes} {h : Bool → Nat → Nat → StM σ Bytes} {inv : σ → Prop}
    {h' : Bool → Nat → Nat → StM τ Bytes} {inv' : τ → Prop} (hh : Honest img h inv) (hh' : Honest img h' inv')
    (hu : img.length < U64) {t : Prog β} {f : Dev → β × Dev} (ht : Implements t f)
    (hf : OneResult f) (s : σ) (hs : inv s) (hok : ∀ a ∈ t.asks h s, ∃ b, a.2.2.2 = .ok b)
    (s' : τ) (hs' : inv' s') (hok' : ∀ a ∈ t.asks h' s', ∃ b, a.2.2.2 = .ok b) :
    (t.run h s).1 = (t.run h' s').1 := by
  rw [C65_reader hh hu ht hf s hs hok, C65_reader hh' hu ht hf s' hs' hok']

/-- **C65**, errors: an operation over an honest reader that does not panic reports an error that the reader
has answered, or has the result that it has over the bytes themselves. -/
theorem C65_same_or_reports {σ α : Type} {img : Bytes} {h : Bool → Nat → Nat → StM σ Bytes} {inv : σ → Prop}
    (hh : Honest img h inv) (hu : img.length < U64) {t : Prog (Res α)} {p : StM Dev α} (ht : Implements t p)
    (hp : SameOrReports p) (hf : OneResult p) (s : σ) (hs : inv s)
    (hnp : ∀ a ∈ t.asks h s, ∀ x, a.2.2.2 ≠ .panic x) :
    (∃ e, (t.run h s).1 = .err (.io e) ∧ ∃ a ∈ t.asks h s, a.2.2.2 = .err (.io e)) ∨
    (t.run h s).1 = (p ⟨img, 0, []⟩).1 := by
  rcases C60_same_or_reports hh ht hp s hs hnp with h | ⟨d, ⟨h1, h2⟩, h3⟩
  · exact .inl h
  · right
    rw [h3]
    exact hf.same (by exact h1) (by rw [h1]; exact hu) h2 (fun r hr => by cases hr)

/-- **C65**, the shell over its own stack of readers: if the image goes on for 12288 bytes behind everything
that is asked for, the result is the one over the bytes themselves. -/
theorem C65_stack {β : Type} {img : Bytes} (hu : img.length < I63) {t : Prog β} {f : Dev → β × Dev}
    (ht : Implements t f) (hf : OneResult f) (s : BufSector) (hs : ShellReader img s)
    (hn : ∀ a ∈ t.asks BufSector.ask s, a.2.1 + a.2.2.1 + 12288 ≤ img.length) :
    (t.run BufSector.ask s).1 = (f ⟨img, 0, []⟩).1 := by
  refine C65_reader (C60_stack_honest img) (by omega) ht hf s hs.1 fun a ha => ?_
  obtain ⟨_, g⟩ := t.asks_stack hu s hs (fun a ha => by have := hn a ha; omega)
  refine ⟨_, (g a ha).1 (Or.inr ?_)⟩
  have h1 := hn a ha
  have h2 := Nat.div_mul_le_self (a.2.1 + max a.2.2.1 8192) 4096
  have h3 : max a.2.2.1 8192 ≤ a.2.2.1 + 8192 := by omega
  generalize (a.2.1 + max a.2.2.1 8192) / 4096 * 4096 = x at h2 ⊢
  exact Nat.le_trans (by omega : x + 4096 ≤ a.2.1 + a.2.2.1 + 12288) h1

/-- The one exception: `read` of a single data run (`NtfsDataRun`, as `data_runs()` yields them) passes a short
answer of the device on to the caller, so here the result does depend on the device. -/
theorem C65_run_negation : ∃ (r : DataRun) (buf : Bytes), ¬ OneResult fun d =>
    (((r.read buf d).1, (r.read buf d).2.1, (r.read buf d).2.2.1), (r.read buf d).2.2.2) := by
  refine ⟨⟨some 1, 2, 0⟩, [0, 0], fun h => ?_⟩
  obtain ⟨r, hr⟩ := h [1, 2, 3] (by decide)
  have h1 := (hr ⟨[1, 2, 3], 0, []⟩ rfl (fun r hr => by cases hr)).1
  have h2 := (hr ⟨[1, 2, 3], 0, [.chunk 0, .chunk 0]⟩ rfl (fun r hr e => by
    rcases List.mem_cons.1 hr with rfl | hr
    · simp
    · rcases List.mem_cons.1 hr with rfl | hr
      · simp
      · cases hr)).1
  rw [← h2] at h1
  revert h1
  decide

/-! ### The hypotheses are met -/

/-- A value of two runs, read from a device that delivers everything at once and from one that delivers single
bytes: `C65_results` applies to both. -/
def exSplit : Val := .simple (.nonRes
  { clusterSize := 2, data := [0x11, 1, 1, 0x11, 1, 1, 0], position := some 8,
    runs := { clusterSize := 2, data := [0x11, 1, 1, 0x11, 1, 1, 0], position := some 8,
              state := { offset := 3, previousLcn := 1 } },
    st := { run := some ⟨some 2, 2, 0⟩, streamPosition := 0, dataSize := 3 } })

example : (exSplit.read [0, 0, 0, 0] ⟨[0, 1, 2, 3, 4, 5], 0, []⟩).1 = .ok 3 ∧
    (exSplit.read [0, 0, 0, 0] ⟨[0, 1, 2, 3, 4, 5], 0, []⟩).2.2.1 = [2, 3, 4, 0] ∧
    (exSplit.read [0, 0, 0, 0] ⟨[0, 1, 2, 3, 4, 5], 5, List.replicate 8 (.chunk 0)⟩).1 = .ok 3 ∧
    (exSplit.read [0, 0, 0, 0] ⟨[0, 1, 2, 3, 4, 5], 5, List.replicate 8 (.chunk 0)⟩).2.2.1 = [2, 3, 4, 0] := by
  decide

/-- The volume of C59, read in pieces of one byte: opening it gives the same as reading it at once. -/
example : (Ntfs.new ⟨exDisk, 0, []⟩).1 = (Ntfs.new ⟨exDisk, 77, List.replicate 1000 (.chunk 0)⟩).1 :=
  C65_results.1.same rfl (by decide +kernel) (fun r hr => by cases hr) (fun r hr e => by
    rw [List.eq_of_mem_replicate hr]
    simp)

/-- A `SectorReader`-based reader and a plain one (`C60_stack_honest`): the hypotheses of `C65_stack` can be met,
by an image with enough bytes. -/
example (img : Bytes) (h : 512 + 12288 ≤ img.length) (hu : img.length < I63) (s : BufSector)
    (hs : ShellReader img s) : (Ntfs.newProg.run BufSector.ask s).1 = (Ntfs.new ⟨img, 0, []⟩).1 := by
  refine C65_stack hu Ntfs.newProg_implements C65_results.1 s hs fun a ha => ?_
  have : a = (true, 0, 512, (BufSector.ask true 0 512 s).1) := by simpa [Ntfs.newProg, Prog.asks] using ha
  subst this
  exact h

/-- The other theorems, for opening the volume of C59 from memory and through the stack. -/
example (d : Dev) (hd : d.Ok exDisk) :=
  C65_history C65_results.1 C65_results.1 d (by rw [hd.1, exDisk_length]; decide) hd.2
example := C65_reader (memAsk_honest exDisk) (by rw [exDisk_length]; decide) Ntfs.newProg_implements C65_results.1 () trivial exMem_ok
example := C65_two_readers (memAsk_honest exDisk) (memAsk_honest exDisk) (by rw [exDisk_length]; decide) Ntfs.newProg_implements C65_results.1 () trivial exMem_ok () trivial exMem_ok
example := C65_same_or_reports (memAsk_honest exDisk) (by rw [exDisk_length]; decide) Ntfs.newProg_implements C54_volume.1 C65_results.1 () trivial exMem_no_panic

end NT
