import Verif.Lemmas.ShellGet
import Verif.Lemmas.Flaky
import Verif.Props.C53_Copy

/-! C54: a device that fails at some calls, with an error other than `Interrupted` (that one is retried,
see C07). -/

namespace NT

open Spec

/-- The operation reports a failure of the device, or it does exactly what it does when all the calls of
the device that would fail succeed instead: same result, same state, same position of the device. -/
def SameOrReports {S α : Type} [OnDevice S] (p : StM S α) : Prop :=
  ∀ (s : S), (∀ e, .fail e ∈ (OnDevice.dev s).sched → e ≠ .interrupted) →
    (∃ e, .fail e ∈ (OnDevice.dev s).sched ∧ (p s).1 = .err (.io e)) ∨
    ∀ k, p (OnDevice.heal k s) = ((p s).1, OnDevice.heal k (p s).2)

/-- The healed device has the same contents and position, answers as many calls the same way, and never
fails. -/
theorem Dev.heal_spec (k : Nat) (d : Dev) : (d.heal k).img = d.img ∧ (d.heal k).pos = d.pos ∧
    (d.heal k).NoFail ∧ (d.NoFail → d.heal k = d) := by
  refine ⟨rfl, rfl, ?_, ?_⟩
  · intro r hr e he
    obtain ⟨x, -, rfl⟩ := List.mem_map.1 hr
    cases x <;> cases he
  · intro h
    unfold Dev.heal
    have : d.sched.map (Resp.heal k) = d.sched := by
      conv => rhs; rw [← List.map_id d.sched]
      refine List.map_congr_left fun x hx => ?_
      cases x with
      | chunk n => rfl
      | fail e => exact absurd rfl (h _ hx e)
    rw [this]

theorem SameOrReports.of {S α : Type} [OnDevice S] {p : StM S α}
    (h : ∀ (F : IoErr → Prop) k, ¬ F .interrupted → Faithful F k p) : SameOrReports p := by
  intro s hs
  by_cases hx : ∃ e, .fail e ∈ (OnDevice.dev s).sched ∧ (p s).1 = .err (.io e)
  · exact .inl hx
  · refine .inr fun k => ?_
    rcases h (fun e => .fail e ∈ (OnDevice.dev s).sched) k (fun hi => hs _ hi rfl) s (fun e he => he) with
      ⟨_, h2⟩ | h2
    · exact h2
    · exact absurd h2 hx

/-- **C54**, opening a volume and its files. -/
theorem C54_volume :
    SameOrReports Ntfs.new ∧
    (∀ n i, SameOrReports (Ntfs.file n i)) ∧
    (∀ n, SameOrReports (Ntfs.rootDirectory n)) ∧
    (∀ n, SameOrReports (Ntfs.volumeInfo n)) ∧
    (∀ n, SameOrReports (Ntfs.volumeName n)) ∧
    (∀ n fuel, SameOrReports (Ntfs.readUpcaseTable n fuel)) :=
  ⟨.of fun _ _ h => Ntfs.new_faithful h, fun n i => .of fun _ _ h => Ntfs.file_faithful h n i,
    fun n => .of fun _ _ h => Ntfs.file_faithful h n _, fun n => .of fun _ _ h => Ntfs.volumeInfo_faithful h n,
    fun n => .of fun _ _ h => Ntfs.volumeName_faithful h n,
    fun n fuel => .of fun _ _ h => Ntfs.readUpcaseTable_faithful h n fuel⟩

/-- **C54**, the attributes of a file: the iteration and all lookups. -/
theorem C54_attributes :
    SameOrReports Attrs.next ∧
    (∀ f asked fuel, SameOrReports (NFile.dataItem f asked fuel)) ∧
    (∀ f ty name fuel, SameOrReports (NFile.findAttribute f ty name fuel)) ∧
    (∀ f ns parent fuel, SameOrReports (NFile.fileName f ns parent fuel)) ∧
    (∀ f fuel, SameOrReports (NFile.directoryIndex f fuel)) ∧
    SameOrReports AttrList.next :=
  ⟨.of fun _ _ h => Attrs.next_faithful h, fun f a n => .of fun _ _ h => NFile.dataItem_faithful h f a n,
    fun f t n m => .of fun _ _ h => NFile.findAttribute_faithful h f t n m,
    fun f t n m => .of fun _ _ h => NFile.fileName_faithful h f t n m,
    fun f n => .of fun _ _ h => NFile.directoryIndex_faithful h f n,
    .of fun _ _ h => AttrList.next_faithful h⟩

/-- **C54**, values of attributes: opening, `read_exact` and the structured values. -/
theorem C54_values :
    (∀ a, SameOrReports (Attr.value a)) ∧
    (∀ n, SameOrReports (Val.readExactAttached n)) ∧
    (∀ a : Attr, SameOrReports (a.structuredValue StdInfo.structured)) ∧
    (∀ a : Attr, SameOrReports (a.structuredValue FileName.structured)) ∧
    (∀ a : Attr, SameOrReports (a.structuredValue VolumeInfo.structured)) ∧
    (∀ a : Attr, SameOrReports (a.structuredValue VolumeName.structured)) ∧
    (∀ a : Attr, SameOrReports (a.structuredValue ObjectId.structured)) :=
  ⟨fun a => .of fun _ _ h => Attr.value_faithful h a,
    fun n => .of fun _ _ h => Val.readExactAttached_faithful h n,
    fun a => .of fun _ _ h => Attr.structuredValue_faithful h StdInfo.reads a,
    fun a => .of fun _ _ h => Attr.structuredValue_faithful h FileName.reads a,
    fun a => .of fun _ _ h => Attr.structuredValue_faithful h VolumeInfo.reads a,
    fun a => .of fun _ _ h => Attr.structuredValue_faithful h VolumeName.reads a,
    fun a => .of fun _ _ h => Attr.structuredValue_faithful h ObjectId.reads a⟩

/-- **C54**, indexes: iteration over entries, iteration over records, lookup of a name. -/
theorem C54_index :
    (∀ ix fuel, SameOrReports (IndexEntries.next ix fuel)) ∧
    SameOrReports IndexRecords.next ∧
    (∀ a size vcn, SameOrReports (IndexAllocation.recordFromVcn a size vcn)) ∧
    (∀ ix n name fuel, SameOrReports (Index.findName ix n name fuel)) ∧
    (∀ e n, SameOrReports (IEntry.toFile e n)) :=
  ⟨fun ix n => .of fun _ _ h => IndexEntries.next_faithful h ix n,
    .of fun _ _ h => IndexRecords.next_faithful h,
    fun a s v => .of fun _ _ h => IndexAllocation.recordFromVcn_faithful h a s v,
    fun ix n name fuel => .of fun _ _ h => Index.findName_faithful h ix n name fuel,
    fun e n => .of fun _ _ h => IEntry.toFile_faithful h e n⟩

/-- **C54**, one `read` of a value. -/
theorem C54_read (v : Val) (buf : Bytes) (d : Dev)
    (hd : ∀ e, .fail e ∈ d.sched → e ≠ .interrupted) :
    (∃ e, .fail e ∈ d.sched ∧ (v.read buf d).1 = .err (.io e)) ∨
    ∀ k, v.read buf (d.heal k) =
      ((v.read buf d).1, (v.read buf d).2.1, (v.read buf d).2.2.1, (v.read buf d).2.2.2.heal k) := by
  by_cases hx : ∃ e, .fail e ∈ d.sched ∧ (v.read buf d).1 = .err (.io e)
  · exact .inl hx
  · refine .inr fun k => ?_
    rcases Val.readFn_faithful (F := fun e => .fail e ∈ d.sched) (k := k) (fun hi => hd _ hi rfl) v d buf
      (fun e he => he) with ⟨_, h2⟩ | h2
    · unfold Val.readFn at h2
      dsimp only at h2
      generalize v.read buf (d.heal k) = q at h2
      obtain ⟨a, b, c, e⟩ := q
      simp only [Prod.mk.injEq] at h2
      obtain ⟨rfl, ⟨rfl, rfl⟩, rfl⟩ := h2
      rfl
    · exact absurd h2 hx

/-- **C54**, one `seek` of a value. -/
theorem C54_seek (v : Val) (pos : SeekFrom) (d : Dev)
    (hd : ∀ e, .fail e ∈ d.sched → e ≠ .interrupted) :
    (∃ e, .fail e ∈ d.sched ∧ (v.seek pos d).1 = .err (.io e)) ∨
    ∀ k, v.seek pos (d.heal k) = ((v.seek pos d).1, (v.seek pos d).2.1, (v.seek pos d).2.2.heal k) := by
  by_cases hx : ∃ e, .fail e ∈ d.sched ∧ (v.seek pos d).1 = .err (.io e)
  · exact .inl hx
  · refine .inr fun k => ?_
    rcases Val.seek_faithful (F := fun e => .fail e ∈ d.sched) (k := k) (fun hi => hd _ hi rfl) v pos d
      (fun e he => he) with ⟨_, h2⟩ | h2
    · exact h2
    · exact absurd h2 hx

/-- **C54**: so an operation that succeeds on a device that fails now and then succeeds with the same
result on a device with the same contents that never fails. What is proved about devices that never fail
therefore holds for every success on a device that does. -/
theorem C54_success {S α : Type} [OnDevice S] {p : StM S α} (hp : SameOrReports p) (s : S)
    (hs : ∀ e, .fail e ∈ (OnDevice.dev s).sched → e ≠ .interrupted) (a : α) (h : (p s).1 = .ok a) (k : Nat) :
    p (OnDevice.heal k s) = (.ok a, OnDevice.heal k (p s).2) := by
  rcases hp s hs with ⟨e, _, he⟩ | hp
  · rw [h] at he; cases he
  · rw [hp k, h]

/-- **C54**, `get`: what is written over a device that fails now and then is always the beginning of what
is written over the device that does not, and all of it unless a failure is reported. -/
theorem C54_get (s : Shell) (arg : List Char) (exists' : List Char → Bool) (fuel k : Nat) (d : Dev)
    (hd : ∀ e, .fail e ∈ d.sched → e ≠ .interrupted) :
    ((∃ e, .fail e ∈ d.sched ∧ (s.get arg exists' fuel d).1 = .err (.io e)) ∧
      ∃ name b b', (s.get arg exists' fuel d).2.1 = some (name, b) ∧
        (s.get arg exists' fuel (d.heal k)).2.1 = some (name, b') ∧ b <+: b') ∨
    s.get arg exists' fuel (d.heal k) =
      ((s.get arg exists' fuel d).1, (s.get arg exists' fuel d).2.1, (s.get arg exists' fuel d).2.2.heal k) := by
  have created : ∀ d', exists' (outputName (splitStream arg).1 (splitStream arg).2) = false →
      ∃ b, (s.get arg exists' fuel d').2.1 = some (outputName (splitStream arg).1 (splitStream arg).2, b) := by
    intro d' hx
    rw [Shell.get_eq]
    rw [hx, if_neg (by decide)]
    generalize s.openData (splitStream arg).1 (splitStream arg).2 fuel d' = q
    obtain ⟨x, d1⟩ := q
    cases x with
    | ok o =>
      cases o with
      | error m => exact ⟨_, rfl⟩
      | ok v =>
        dsimp only
        generalize copyLoop Val.readFn fuel (v, d1) (List.replicate 4096 0) [] = q
        obtain ⟨x, ⟨w, d2⟩, b⟩ := q
        cases x <;> exact ⟨_, rfl⟩
    | err e => exact ⟨_, rfl⟩
    | panic e => exact ⟨_, rfl⟩
    | diverge => exact ⟨_, rfl⟩
  cases hx : exists' (outputName (splitStream arg).1 (splitStream arg).2) with
  | true =>
    right
    simp only [Shell.get_eq]
    rw [hx, if_pos rfl]
    rfl
  | false =>
    obtain ⟨b', hb'⟩ := created (d.heal k) hx
    have hF : ¬ (fun e => Resp.fail e ∈ d.sched) IoErr.interrupted := fun hi => hd _ hi rfl
    rcases Shell.openData_faithful (k := k) hF s (splitStream arg).1 (splitStream arg).2 fuel d
      (fun e he => he) with ⟨g1, g2⟩ | ⟨e, g1, g2⟩
    · rw [OnDevice.heal_dev] at g2
      simp only [Shell.get_eq] at hb' ⊢
      rw [hx, if_neg (by decide)] at hb' ⊢
      rw [g2] at hb' ⊢
      generalize s.openData (splitStream arg).1 (splitStream arg).2 fuel d = q at g1 hb'
      obtain ⟨x, d1⟩ := q
      cases x with
      | ok o =>
        cases o with
        | error m => exact .inr rfl
        | ok v =>
          rw [OnDevice.heal_dev] at hb' ⊢
          dsimp only at hb' ⊢
          rcases copyLoop_faithful (k := k) (Val.readFn_faithful hF) fuel v d1 (List.replicate 4096 0) [] g1
            with ⟨i1, i2⟩ | ⟨⟨e, i1, i2⟩, i3⟩
          · right
            rw [i2]
            generalize copyLoop Val.readFn fuel (v, d1) (List.replicate 4096 0) [] = q at i1
            obtain ⟨x, ⟨w, d2⟩, b⟩ := q
            cases x <;> rfl
          · left
            refine ⟨⟨e, i1, ?_⟩, outputName (splitStream arg).1 (splitStream arg).2,
              (copyLoop Val.readFn fuel (v, d1) (List.replicate 4096 0) []).2.2,
              (copyLoop Val.readFn fuel (v, d1.heal k) (List.replicate 4096 0) []).2.2, ?_, ?_, i3⟩
            · generalize copyLoop Val.readFn fuel (v, d1) (List.replicate 4096 0) [] = q at i2
              obtain ⟨x, ⟨w, d2⟩, b⟩ := q
              dsimp only at i2
              rw [i2]
            · generalize copyLoop Val.readFn fuel (v, d1) (List.replicate 4096 0) [] = q
              obtain ⟨x, ⟨w, d2⟩, b⟩ := q
              cases x <;> rfl
            · generalize copyLoop Val.readFn fuel (v, d1.heal k) (List.replicate 4096 0) [] = q
              obtain ⟨x, ⟨w, d2⟩, b⟩ := q
              cases x <;> rfl
      | err e => exact .inr rfl
      | panic e => exact .inr rfl
      | diverge => exact .inr rfl
    · left
      have e1 : s.get arg exists' fuel d = (.err (.io e),
          some (outputName (splitStream arg).1 (splitStream arg).2, []),
          (s.openData (splitStream arg).1 (splitStream arg).2 fuel d).2) := by
        rw [Shell.get_eq]
        rw [hx, if_neg (by decide)]
        generalize s.openData (splitStream arg).1 (splitStream arg).2 fuel d = q at g2
        obtain ⟨x, d1⟩ := q
        dsimp only at g2
        rw [g2]
      refine ⟨⟨e, g1, by rw [e1]⟩, outputName (splitStream arg).1 (splitStream arg).2, [], b', by rw [e1],
        hb', List.nil_prefix⟩

theorem dirLoop_mono (ix : Index) (fuel n : Nat) (out : List (Bool × Bytes)) (s : IndexEntries × Dev) :
    out <+: (dirLoop ix fuel n out s).2.1 := by
  induction n generalizing out s with
  | zero => exact List.prefix_rfl
  | succ n ih =>
    unfold dirLoop
    generalize IndexEntries.next ix fuel s = q
    obtain ⟨x, it, d⟩ := q
    cases x with
    | ok o =>
      cases o with
      | none => exact List.prefix_rfl
      | some e =>
        dsimp only
        cases e.fileNameKey with
        | ok k => exact (List.prefix_append out _).trans (ih _ _)
        | err x => exact List.prefix_rfl
        | panic x => exact List.prefix_rfl
        | diverge => exact List.prefix_rfl
    | err x => exact List.prefix_rfl
    | panic x => exact List.prefix_rfl
    | diverge => exact List.prefix_rfl

theorem dirLoop_faithful {F : IoErr → Prop} (hF : ¬ F .interrupted) (k : Nat) (ix : Index) (fuel n : Nat)
    (out : List (Bool × Bytes)) (it : IndexEntries) (d : Dev) (hd : d.FailsIn F) :
    dirLoop ix fuel n out (it, d.heal k) = ((dirLoop ix fuel n out (it, d)).1, (dirLoop ix fuel n out (it, d)).2.1,
      (dirLoop ix fuel n out (it, d)).2.2.heal k) ∨
    (∃ e, F e ∧ (dirLoop ix fuel n out (it, d)).1 = .err (.io e)) ∧
      (dirLoop ix fuel n out (it, d)).2.1 <+: (dirLoop ix fuel n out (it, d.heal k)).2.1 := by
  induction n generalizing out it d with
  | zero => exact .inl rfl
  | succ n ih =>
    rcases IndexEntries.next_faithful (k := k) hF ix fuel (it, d) hd with ⟨g1, g2⟩ | ⟨e, g1, g2⟩
    · rw [OnDevice.heal_pair] at g2
      unfold dirLoop
      rw [g2]
      generalize IndexEntries.next ix fuel (it, d) = q at g1
      obtain ⟨x, it', d'⟩ := q
      rw [OnDevice.heal_pair]
      cases x with
      | ok o =>
        cases o with
        | none => exact .inl rfl
        | some e =>
          dsimp only
          cases e.fileNameKey with
          | ok k => exact ih _ _ _ g1
          | err x => exact .inl rfl
          | panic x => exact .inl rfl
          | diverge => exact .inl rfl
      | err x => exact .inl rfl
      | panic x => exact .inl rfl
      | diverge => exact .inl rfl
    · right
      have e1 : dirLoop ix fuel (n + 1) out (it, d) =
          (.err (.io e), out, (IndexEntries.next ix fuel (it, d)).2.2) := by
        unfold dirLoop
        generalize IndexEntries.next ix fuel (it, d) = q at g2
        obtain ⟨x, it', d'⟩ := q
        dsimp only at g2
        rw [g2]
      rw [e1]
      exact ⟨⟨e, g1, rfl⟩, dirLoop_mono _ _ _ _ _⟩

/-- **C54**, `dir`: what is listed over a device that fails now and then is always the beginning of what is
listed over the device that does not, and all of it unless a failure is reported. -/
theorem C54_dir (s : Shell) (fuel k : Nat) (d : Dev) (hd : ∀ e, .fail e ∈ d.sched → e ≠ .interrupted) :
    ((∃ e, .fail e ∈ d.sched ∧ (s.dir fuel d).1 = .err (.io e)) ∧
      (s.dir fuel d).2.1 <+: (s.dir fuel (d.heal k)).2.1) ∨
    s.dir fuel (d.heal k) = ((s.dir fuel d).1, (s.dir fuel d).2.1, (s.dir fuel d).2.2.heal k) := by
  have hF : ¬ (fun e => Resp.fail e ∈ d.sched) IoErr.interrupted := fun hi => hd _ hi rfl
  have hp : Faithful (fun e => Resp.fail e ∈ d.sched) k
      (do let f ← StM.lift s.last; f.directoryIndex fuel : StM Dev Index) :=
    .bind (.lift _) fun f => NFile.directoryIndex_faithful hF f fuel
  rcases hp d (fun e he => he) with ⟨g1, g2⟩ | ⟨e, g1, g2⟩
  · rw [OnDevice.heal_dev] at g2
    unfold Shell.dir
    rw [g2]
    generalize (do let f ← StM.lift s.last; f.directoryIndex fuel : StM Dev Index) d = q at g1
    obtain ⟨x, d1⟩ := q
    cases x with
    | ok ix =>
      rw [OnDevice.heal_dev]
      exact (dirLoop_faithful hF k ix fuel fuel [] _ d1 g1).symm
    | err e => exact .inr rfl
    | panic e => exact .inr rfl
    | diverge => exact .inr rfl
  · left
    have e1 : s.dir fuel d =
        (.err (.io e), [], ((do let f ← StM.lift s.last; f.directoryIndex fuel : StM Dev Index) d).2) := by
      unfold Shell.dir
      generalize (do let f ← StM.lift s.last; f.directoryIndex fuel : StM Dev Index) d = q at g2
      obtain ⟨x, d1⟩ := q
      dsimp only at g2
      rw [g2]
    rw [e1]
    exact ⟨⟨e, g1, rfl⟩, List.nil_prefix⟩

/-- **C54**, the other commands of the shell. -/
theorem C54_shell :
    (∀ fuel, SameOrReports (Shell.start fuel)) ∧
    (∀ s arg fuel, SameOrReports (Shell.cd s arg fuel)) ∧
    (∀ s arg fuel, SameOrReports (Shell.parseFileArg s arg fuel)) ∧
    (∀ f parent fuel, SameOrReports (bestFileName f parent fuel)) :=
  ⟨fun n => .of fun _ _ h => Shell.start_faithful h n, fun s a n => .of fun _ _ h => Shell.cd_faithful h s a n,
    fun s a n => .of fun _ _ h => Shell.parseFileArg_faithful h s a n,
    fun f p n => .of fun _ _ h => bestFileName_faithful h f p n⟩

/-- A device that fails at the second call: the exact read of three bytes reports that failure. On the
healed device it succeeds. -/
example :
    let d : Dev := ⟨[1, 2, 3, 4], 0, [.chunk 0, .fail (.other 7)]⟩
    (∀ e, .fail e ∈ d.sched → e ≠ .interrupted) ∧
      (Dev.readExact 3 d).1 = .err (.io (.other 7)) ∧ (Dev.readExact 3 (d.heal 0)).1 = .ok [1, 2, 3] := by
  refine ⟨?_, by decide +kernel, by decide +kernel⟩
  intro e he
  simp at he
  rw [he]
  decide

/-- `Interrupted` must be excluded: a read that has delivered two bytes and is then interrupted is repeated
by `read_exact` with the buffer from its start, so that these bytes are lost (C07), while on the healed
device all is well. -/
theorem C54_interrupted_negation : ∃ v v1, NonRes.new 4 [0x11, 1, 1, 0x11, 1, 1] none 8 = .ok v ∧
    v.seek (.start 2) = (.ok 2, v1) ∧
    let d : Dev := ⟨[0, 1, 2, 3, 4, 5, 6, 7, 8, 9, 10, 11], 0, [.chunk 9, .chunk 9, .fail .interrupted]⟩
    (Val.readExactAttached 4 (.simple (.nonRes v1), d)).1 = .ok [8, 9, 10, 11] ∧
    (Val.readExactAttached 4 (.simple (.nonRes v1), d.heal 9)).1 = .ok [6, 7, 8, 9] := by
  exact ⟨_, _, rfl, rfl, by decide, by decide⟩

/-- The theorems of this file on a device that fails. -/
example := C54_read (.simple (.res ⟨[1, 2, 3], none, 1⟩)) [0, 0] ⟨[1, 2], 0, [.fail (.other 7)]⟩ (by simp)
example := C54_seek (.simple (.res ⟨[1, 2, 3], none, 1⟩)) (.end_ 2) ⟨[1, 2], 0, [.fail (.other 7)]⟩ (by simp)
/-- A look for the volume that meets no failure although the device has one ready: whatever it gives is what the
healed device gives. -/
example (d : Dev) (n : Ntfs) (h : (Ntfs.new ⟨d.img, 0, [.chunk 5, .fail (.other 7)]⟩).1 = .ok n) (k : Nat) :=
  C54_success C54_volume.1 (⟨d.img, 0, [.chunk 5, .fail (.other 7)]⟩ : Dev)
    (by intro e he; simp [OnDevice.dev] at he; subst he; exact fun h => nomatch h) n h k
example (s : Shell) := C54_get s "a:b".toList (fun _ => false) 9 4 ⟨[1, 2], 0, [.fail (.other 7)]⟩ (by simp)
example (s : Shell) := C54_dir s 9 4 ⟨[1, 2], 0, [.fail (.other 7)]⟩ (by simp)

end NT
