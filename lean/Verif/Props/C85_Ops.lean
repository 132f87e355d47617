import Verif.Model.ReleaseOps
import Verif.Props.C85_Release
import Verif.Props.C03_ListValue
import Verif.Lemmas.IndexEntry

/-! C85 for whole operations: opening files, and values that are split over an attribute list. -/

namespace NT

open Spec

/-- The result of a release build is that of a debug build, or the debug build stops. -/
def Agree {α β : Type} (rel dbg : Res α × β) : Prop := rel = dbg ∨ ∃ p, dbg.1 = .panic p

theorem Agree.refl {α β : Type} (x : Res α × β) : Agree x x := .inl rfl

theorem Agree.bind {σ α β : Type} {f g : StM σ α} {f' g' : α → StM σ β} (h : ∀ s, Agree (f s) (g s))
    (h' : ∀ a s, Agree (f' a s) (g' a s)) (s : σ) : Agree ((f >>= f') s) ((g >>= g') s) := by
  rw [StM.bind_apply, StM.bind_apply]
  rcases h s with e | ⟨p, e⟩
  · rw [e]
    cases hg : g s with
    | mk x s' =>
      cases x with
      | ok a => exact h' a s'
      | err => exact .refl _
      | panic => exact .refl _
      | diverge => exact .refl _
  · cases hg : g s with
    | mk x s' =>
      rw [hg] at e
      dsimp only at e
      subst e
      exact .inr ⟨p, rfl⟩

theorem Record.fixupRel_agree (r : Record) : r.fixupRel = r.fixup ∨ ∃ p, r.fixup = .panic p := by
  unfold Record.fixupRel Record.fixup Record.usArrayStartRel Record.usArrayStart
  cases r.usNumber with
  | ok usn =>
    cases r.usArrayCount with
    | ok n =>
      cases r.usOffset with
      | ok off =>
        simp only [Res.bind_ok]
        by_cases h : off + 2 < U16
        · rw [if_pos h, Nat.mod_eq_of_lt h]
          exact .inl rfl
        · rw [if_neg h]
          exact .inr ⟨_, rfl⟩
      | err => exact .inl rfl
      | panic => exact .inl rfl
      | diverge => exact .inl rfl
    | err => exact .inl rfl
    | panic => exact .inl rfl
    | diverge => exact .inl rfl
  | err => exact .inl rfl
  | panic => exact .inl rfl
  | diverge => exact .inl rfl

theorem NFile.ofBytesRel_agree (n : Ntfs) (b : Bytes) (pos num : Nat) :
    NFile.ofBytesRel n b pos num = NFile.ofBytes n b pos num ∨ ∃ p, NFile.ofBytes n b pos num = .panic p := by
  unfold NFile.ofBytesRel NFile.ofBytes
  dsimp only
  cases NFile.validateSignature { data := b, position := some pos } with
  | ok u =>
    simp only [Res.bind_ok]
    rcases Record.fixupRel_agree { data := b, position := some pos } with e | ⟨p, e⟩
    · rw [e]
      exact .inl rfl
    · rw [e]
      exact .inr ⟨p, rfl⟩
  | err => exact .inl rfl
  | panic => exact .inl rfl
  | diverge => exact .inl rfl

theorem NFile.newRel_agree (n : Ntfs) (pos num : Nat) (d : Dev) : Agree (NFile.newRel n pos num d) (NFile.new n pos num d) :=
  .bind (fun _ => .refl _) (fun _ => .bind (fun _ => .refl _) (fun b s => by
    rcases NFile.ofBytesRel_agree n b pos num with e | ⟨p, e⟩
    · rw [StM.lift_apply, StM.lift_apply, e]
      exact .refl _
    · rw [StM.lift_apply, StM.lift_apply, e]
      exact .inr ⟨p, rfl⟩)) d

/-- **C85**: opening a file in a release build is opening it in a debug build, unless the latter stops. -/
theorem C85_file (n : Ntfs) (number : Nat) (d : Dev) :
    n.fileRel number d = n.file number d ∨ ∃ p, (n.file number d).1 = .panic p := by
  change Agree _ _
  unfold Ntfs.fileRel Ntfs.file
  refine .bind (fun _ => .refl _) (fun offset s => ?_) d
  cases n.mftPosition with
  | none => exact .refl _
  | some m =>
    dsimp only
    refine .bind (NFile.newRel_agree n m 0) (fun mft => .bind (fun _ => .refl _) fun attr => .bind (fun _ => .refl _)
      fun v s => ?_) s
    cases v.seek (.start offset) with
    | mk x v' =>
      cases x with
      | ok t =>
        dsimp only
        cases v'.dataPosition with
        | none => exact .refl _
        | some pos => exact NFile.newRel_agree n pos number s
      | err => exact .refl _
      | panic => exact .refl _
      | diverge => exact .refl _

/-- **C85**: the subtraction in `subnode_vcn` (`src/index_entry.rs:254`) never goes below zero, on any bytes: it comes after
the flags have been read, and an entry that is long enough for those has at least 13 bytes. So it needs no release version. -/
theorem C85_subnode {b : Bytes} {p : Pos} {e : IEntry} (h : IEntry.new b p = .ok e) : e.subnodeVcn ≠ .panic .overflow := by
  rw [IEntry.new_eq] at h
  split at h
  · cases h
  split at h
  · cases h
  rename_i h1 h2
  injection h with h
  have hl : e.slice.length = field b 8 2 := by rw [← h, List.length_take]; omega
  unfold IEntry.subnodeVcn IEntry.hasSubnode
  by_cases h13 : 13 ≤ e.slice.length
  · rw [IEntry.flags_eq h13]
    simp only [Res.bind_ok, Res.pure_eq]
    split
    · nofun
    · rw [IEntry.length_eq (by omega)]
      have hf : field e.slice 8 2 = e.slice.length := by
        have hn : 13 ≤ field b 8 2 := by omega
        rw [hl, ← h]
        dsimp only
        have key : ∀ n, 13 ≤ n → field (b.take n) 8 2 = field b 8 2 := by
          intro n hn
          unfold field
          rw [List.drop_take, List.take_take, Nat.min_eq_left (by omega)]
        exact key _ hn
      simp only [Res.bind_ok]
      rw [hf, if_neg (by omega)]
      unfold IEntry.range
      cases getRange e.slice (max (e.slice.length - 8) 16) (max (e.slice.length - 8) 16 + 8) with
      | none => nofun
      | some x =>
        unfold readLE Res.ofOption
        simp only [Res.bind_ok]
        split <;> nofun
  · have : e.flags = .panic .slice := by
      unfold IEntry.flags idxByte
      rw [List.getElem?_eq_none (by omega)]
      rfl
    rw [this]
    nofun

/-- An entry of 16 bytes with the flag of a subnode and no place for its number. -/
example : ∃ e, IEntry.new [0, 0, 0, 0, 0, 0, 0, 0, 16, 0, 0, 0, 1, 0, 0, 0] none = .ok e ∧
    e.subnodeVcn = .err (.invalidIndexEntryDataRange none 16 24 16) := ⟨_, rfl, rfl⟩

theorem readExactLoop_agree {σ : Type} {f g : ReadFn σ} (h : ∀ s b, Agree (f s b) (g s b)) :
    ∀ (fuel : Nat) (s : σ) (done buf : Bytes), Agree (readExactLoop f fuel s done buf) (readExactLoop g fuel s done buf)
  | 0, _, _, _ => .refl _
  | fuel + 1, s, done, buf => by
    unfold readExactLoop
    by_cases h0 : buf.length = 0
    · rw [if_pos h0, if_pos h0]
      exact .refl _
    rw [if_neg h0, if_neg h0]
    rcases h s buf with e | ⟨p, e⟩
    · rw [e]
      cases hg : g s buf with
      | mk x y =>
        obtain ⟨s', buf'⟩ := y
        cases x with
        | ok n =>
          dsimp only
          by_cases h1 : n = 0
          · rw [if_pos h1, if_pos h1]; exact .refl _
          rw [if_neg h1, if_neg h1]
          by_cases h2 : n ≤ buf'.length
          · rw [if_pos h2, if_pos h2]; exact readExactLoop_agree h fuel _ _ _
          · rw [if_neg h2, if_neg h2]; exact .refl _
        | err e =>
          dsimp only
          by_cases h1 : e = .io .interrupted
          · rw [if_pos h1, if_pos h1]; exact readExactLoop_agree h fuel _ _ _
          · rw [if_neg h1, if_neg h1]; exact .refl _
        | panic => exact .refl _
        | diverge => exact .refl _
    · cases hg : g s buf with
      | mk x y =>
        rw [hg] at e
        dsimp only at e
        subst e
        exact .inr ⟨p, rfl⟩

theorem NonRes.readExactAttachedRel_agree (n : Nat) (s : NonRes × Dev) :
    Agree (NonRes.readExactAttachedRel n s) (NonRes.readExactAttached n s) := by
  obtain ⟨v, d⟩ := s
  have h := readExactLoop_agree (f := NonRes.readFnRel) (g := NonRes.readFn)
    (fun s b => by
      obtain ⟨v, d⟩ := s
      unfold NonRes.readFnRel NonRes.readFn
      dsimp only
      rcases C85_read v b d with e | e
      · rw [e]; exact .refl _
      · exact .inr ⟨.overflow, e⟩)
    (n + d.sched.length + 1) (v, d) [] (List.replicate n 0)
  unfold NonRes.readExactAttachedRel NonRes.readExactAttached NonRes.readExact
  dsimp only
  rw [List.length_replicate]
  rcases h with e | ⟨p, e⟩
  · rw [e]; exact .refl _
  · cases hg : readExactLoop NonRes.readFn (n + d.sched.length + 1) (v, d) [] (List.replicate n 0) with
    | mk x y =>
      rw [hg] at e
      dsimp only at e
      subst e
      exact .inr ⟨p, rfl⟩

theorem ListEntry.new_agree {σ : Type} {f g : Nat → StM σ Bytes} (h : ∀ n s, Agree (f n s) (g n s)) (p : Pos) (s : σ) :
    Agree (ListEntry.new f p s) (ListEntry.new g p s) :=
  .bind (h 26) (fun _ => .bind (fun _ => .refl _) fun _ => .bind (fun _ => .refl _) fun _ => .bind (h _) fun _ _ => .refl _) s

/-- **C85**: so is iterating an attribute list. -/
theorem C85_list (l : AttrList) (d : Dev) :
    AttrList.nextRel (l, d) = AttrList.next (l, d) ∨ ∃ p, (AttrList.next (l, d)).1 = .panic p := by
  cases l with
  | resident s p => exact .inl rfl
  | nonResident v =>
    unfold AttrList.nextRel AttrList.next AttrList.nextNonResidentRel AttrList.nextNonResident
    dsimp only
    by_cases hv : v.streamPosition ≥ v.len
    · rw [if_pos hv, if_pos hv]; exact .inl rfl
    rw [if_neg hv, if_neg hv]
    rcases ListEntry.new_agree NonRes.readExactAttachedRel_agree v.dataPosition (v, d) with e | ⟨p, e⟩
    · rw [e]; exact .inl rfl
    · cases hg : ListEntry.new NonRes.readExactAttached v.dataPosition (v, d) with
      | mk x y =>
        rw [hg] at e
        dsimp only at e
        subst e
        exact .inr ⟨p, rfl⟩

namespace ALVal

theorem nextConnectedRel_agree (s : ALVal × Dev) : Agree (nextConnectedRel s) (nextConnected s) := by
  obtain ⟨v, d⟩ := s
  unfold nextConnectedRel nextConnected
  dsimp only
  cases v.connected with
  | none => exact .refl _
  | some l =>
    dsimp only
    rcases C85_list l d with e | ⟨p, e⟩
    · rw [e]; exact .refl _
    · cases hg : AttrList.next (l, d) with
      | mk x y =>
        rw [hg] at e
        dsimp only at e
        subst e
        exact .inr ⟨p, rfl⟩

theorem openEntryRel_agree (n : Ntfs) (e : ListEntry) (d : Dev) : Agree (openEntryRel n e d) (openEntry n e d) :=
  .bind (C85_file n e.ref.fileRecordNumber) (fun _ _ => .refl _) d

theorem nextAttributeRel_agree (s : ALVal × Dev) : Agree (nextAttributeRel s) (nextAttribute s) := by
  refine .bind nextConnectedRel_agree (fun o s => ?_) s
  cases o with
  | none => exact .refl _
  | some e =>
    obtain ⟨v, d⟩ := s
    dsimp only
    rcases openEntryRel_agree v.ntfs e d with h | ⟨p, h⟩
    · rw [h]; exact .refl _
    · cases hg : openEntry v.ntfs e d with
      | mk x y =>
        rw [hg] at h
        dsimp only at h
        subst h
        exact .inr ⟨p, rfl⟩

theorem advanceRel_agree (v : ALVal) (d : Dev) : Agree (v.advanceRel d) (v.advance d) := by
  unfold advanceRel advance
  cases v.nextDataRun with
  | mk x v' =>
    cases x with
    | ok b =>
      cases b with
      | true => exact .refl _
      | false => exact nextAttributeRel_agree (v', d)
    | err => exact .refl _
    | panic => exact .refl _
    | diverge => exact .refl _

theorem readLoopRel_agree : ∀ (fuel : Nat) (v : ALVal) (buf : Bytes) (br : Nat) (d : Dev),
    Agree (readLoopRel fuel v buf br d) (readLoop fuel v buf br d)
  | 0, _, _, _, _ => .refl _
  | fuel + 1, v, buf, br, d => by
    unfold readLoopRel readLoop
    by_cases h0 : br < buf.length
    case neg => rw [if_neg h0, if_neg h0]; exact .refl _
    rw [if_pos h0, if_pos h0]
    rcases v.st.readDataRunRel_same buf br d with e | e
    · rw [e]
      cases hg : v.st.readDataRun buf br d with
      | mk x y =>
        obtain ⟨st', buf', br', d'⟩ := y
        cases x with
        | ok b =>
          cases b with
          | true => exact readLoopRel_agree fuel _ _ _ _
          | false =>
            dsimp only
            rcases advanceRel_agree { v with st := st' } d' with h | ⟨p, h⟩
            · rw [h]
              cases hn : advance { v with st := st' } d' with
              | mk x z =>
                obtain ⟨v', d''⟩ := z
                cases x with
                | ok b =>
                  cases b with
                  | true => exact readLoopRel_agree fuel _ _ _ _
                  | false => exact .refl _
                | err => exact .refl _
                | panic => exact .refl _
                | diverge => exact .refl _
            · cases hn : advance { v with st := st' } d' with
              | mk x z =>
                rw [hn] at h
                dsimp only at h
                subst h
                exact .inr ⟨p, rfl⟩
        | err => exact .refl _
        | panic => exact .refl _
        | diverge => exact .refl _
    · cases hg : v.st.readDataRun buf br d with
      | mk x y =>
        rw [hg] at e
        dsimp only at e
        subst e
        exact .inr ⟨.overflow, rfl⟩

theorem seekLoopRel_agree : ∀ (fuel : Nat) (v : ALVal) (pos : SeekFrom) (left : Nat) (d : Dev),
    Agree (seekLoopRel fuel v pos left d) (seekLoop fuel v pos left d)
  | 0, _, _, _, _ => .refl _
  | fuel + 1, v, pos, left, d => by
    unfold seekLoopRel seekLoop
    by_cases h0 : left > 0
    case neg => rw [if_neg h0, if_neg h0]; exact .refl _
    rw [if_pos h0, if_pos h0]
    cases v.st.seekDataRun pos left with
    | mk x y =>
      obtain ⟨st', left'⟩ := y
      cases x with
      | ok b =>
        cases b with
        | true => exact .refl _
        | false =>
          dsimp only
          rcases advanceRel_agree { v with st := st' } d with h | ⟨p, h⟩
          · rw [h]
            cases hn : advance { v with st := st' } d with
            | mk x z =>
              obtain ⟨v', d''⟩ := z
              cases x with
              | ok b =>
                cases b with
                | true => exact seekLoopRel_agree fuel _ _ _ _
                | false => exact .refl _
              | err => exact .refl _
              | panic => exact .refl _
              | diverge => exact .refl _
          · cases hn : advance { v with st := st' } d with
            | mk x z =>
              rw [hn] at h
              dsimp only at h
              subst h
              exact .inr ⟨p, rfl⟩
      | err => exact .refl _
      | panic => exact .refl _
      | diverge => exact .refl _

theorem rewindRel_agree (v : ALVal) (d : Dev) : Agree (v.rewindRel d) (v.rewind d) := by
  unfold rewindRel rewind
  rcases nextAttributeRel_agree ({ v with connected := some v.initial, st := StreamState.new v.len }, d) with h | ⟨p, h⟩
  · rw [h]; exact .refl _
  · cases hn : nextAttribute ({ v with connected := some v.initial, st := StreamState.new v.len }, d) with
    | mk x z =>
      rw [hn] at h
      dsimp only at h
      subst h
      exact .inr ⟨p, rfl⟩

theorem newRel_agree (n : Ntfs) (l : AttrList) (i : Nat) (t : AttrType) (size : Nat) (d : Dev) :
    Agree (newRel n l i t size d) (new n l i t size d) := by
  unfold newRel new
  dsimp only
  generalize ALVal.mk n l (some l) i t size none (StreamState.new size) = v
  rcases nextAttributeRel_agree (v, d) with h | ⟨p, h⟩
  · rw [h]; exact .refl _
  · cases hn : nextAttribute (v, d) with
    | mk x z =>
      rw [hn] at h
      dsimp only at h
      subst h
      exact .inr ⟨p, rfl⟩

theorem seekRel_agree (v : ALVal) (pos : SeekFrom) (d : Dev) : Agree (v.seekRel pos d) (v.seek pos d) := by
  unfold seekRel seek
  cases v.st.optimizeSeek pos v.len with
  | err => exact .refl _
  | panic => exact .refl _
  | diverge => exact .refl _
  | ok s =>
    cases s with
    | start n =>
      dsimp only
      rcases rewindRel_agree v d with h | ⟨p, h⟩
      · rw [h]
        cases hr : v.rewind d with
        | mk x y =>
          obtain ⟨v1, d1⟩ := y
          cases x with
          | ok u =>
            dsimp only
            rcases seekLoopRel_agree v.runFuel v1 (.start n) n d1 with h | ⟨p, h⟩
            · rw [h]; exact .refl _
            · cases hn : seekLoop v.runFuel v1 (.start n) n d1 with
              | mk x z =>
                rw [hn] at h
                dsimp only at h
                subst h
                exact .inr ⟨p, rfl⟩
          | err => exact .refl _
          | panic => exact .refl _
          | diverge => exact .refl _
      · cases hr : v.rewind d with
        | mk x y =>
          rw [hr] at h
          dsimp only at h
          subst h
          exact .inr ⟨p, rfl⟩
    | current n =>
      dsimp only
      by_cases h0 : 0 ≤ n
      case neg => rw [if_neg h0, if_neg h0]; exact .refl _
      rw [if_pos h0, if_pos h0]
      rcases seekLoopRel_agree v.runFuel v (.current n) n.toNat d with h | ⟨p, h⟩
      · rw [h]
        cases hr : seekLoop v.runFuel v (.current n) n.toNat d with
        | mk x y =>
          obtain ⟨v2, d2⟩ := y
          cases x with
          | ok u =>
            dsimp only
            by_cases h1 : v2.st.streamPosition + n.toNat < U64
            · rw [if_pos h1, Nat.mod_eq_of_lt h1]; exact .refl _
            · rw [if_neg h1]; exact .inr ⟨_, rfl⟩
          | err => exact .refl _
          | panic => exact .refl _
          | diverge => exact .refl _
      · cases hn : seekLoop v.runFuel v (.current n) n.toNat d with
        | mk x z =>
          rw [hn] at h
          dsimp only at h
          subst h
          exact .inr ⟨p, rfl⟩
    | end_ n => exact .refl _

/-- One operation of a user on a split value, in a release build. -/
def stepRel (v : ALVal) (d : Dev) : Op → Out × ALVal × Dev
  | .read buf =>
    let (r, v', buf', d') := v.readRel buf d
    ({ result := r, buf := buf' }, v', d')
  | .seek s =>
    let (r, v', d') := v.seekRel s d
    ({ result := r, buf := [] }, v', d')

/-- A history of operations on a split value, in a release build. -/
def runRel (v : ALVal) (d : Dev) : List Op → List Out × ALVal × Dev
  | [] => ([], v, d)
  | op :: ops =>
    let (o, v', d') := v.stepRel d op
    let (os, v'', d'') := v'.runRel d' ops
    (o :: os, v'', d'')

end ALVal

/-- **C85**: opening a value, of whatever kind, is the same in both builds unless the debug build stops. -/
theorem C85_open (a : Attr) (d : Dev) : a.valueRel d = a.value d ∨ ∃ p, (a.value d).1 = .panic p := by
  change Agree _ _
  unfold Attr.valueRel Attr.value
  cases a.list with
  | none => exact .refl _
  | some l =>
    exact .bind (fun _ => .refl _) (fun size => .bind (fun _ => .refl _) fun i => .bind (fun _ => .refl _) fun t =>
      .bind (ALVal.newRel_agree a.file.ntfs l i t size) fun _ _ => .refl _) d

/-- **C85** for split values: so is every history of reads and seeks without panics, from every state and over every
device. -/
theorem C85_split : ∀ (ops : List Op) (v : ALVal) (d : Dev), (∀ o ∈ (v.run d ops).1, ∀ p, o.result ≠ .panic p) →
    v.runRel d ops = v.run d ops
  | [], _, _, _ => rfl
  | op :: ops, v, d, h => by
    simp only [ALVal.run] at h
    have h0 : v.stepRel d op = v.step d op := by
      have hs := h _ List.mem_cons_self
      cases op with
      | seek s =>
        rcases ALVal.seekRel_agree v s d with e | ⟨p, e⟩
        · unfold ALVal.stepRel ALVal.step
          dsimp only
          rw [e]
        · exact absurd e (hs p)
      | read buf =>
        rcases ALVal.readLoopRel_agree _ v buf 0 d with e | ⟨p, e⟩
        · unfold ALVal.stepRel ALVal.step ALVal.readRel ALVal.read
          dsimp only
          rw [e]
        · exact absurd e (hs p)
    simp only [ALVal.runRel, ALVal.run, h0]
    rw [C85_split ops _ _ fun o ho => h o (List.mem_cons_of_mem _ ho)]

theorem Spec.Flat.run_no_panic (ops : List Op) (f : Flat) : ∀ o ∈ (f.run ops).1, ∀ p, o.result ≠ .panic p := by
  induction ops generalizing f with
  | nil => nofun
  | cons op ops ih =>
    simp only [Flat.run, List.mem_cons]
    rintro o (rfl | ho) p
    · cases op with
      | read buf => nofun
      | seek s =>
        simp only [Flat.step]
        split <;> nofun
    · exact ih _ o ho p

/-- **C85** for the values of C03: a value that is split over the attributes `parts` of an attribute list opens in a
release build, and every history of reads and seeks gives the results of an in-memory file with its contents. -/
theorem C85_split_file {ntfs : Ntfs} {img : Bytes} {mft : NFile} {mftEs : List Extent}
    {mpre : List Nat} {moff mlen mstart : Nat} (hm : MftStored ntfs img mft mftEs mpre moff mlen mstart)
    {inst : Nat} {ty : AttrType} (parts : List Part) (hne : parts ≠ [])
    (hp : ∀ p ∈ parts, p.Stored ntfs img mftEs inst ty) (rest : List LEntry)
    (hr : OtherValue inst ty rest) (b : Bytes)
    (h : ListEncodes (parts.map Part.entry ++ rest) b) (l : AttrList) (hh : l.Holds img b)
    (a : Attr) (hal : a.list = some l) (han : a.file.ntfs = ntfs)
    (h56 : a.offset + 56 ≤ a.recordData.length) (hanr : field a.recordData (a.offset + 8) 1 ≠ 0)
    (hai : field a.recordData (a.offset + 14) 2 = inst) (hat : field a.recordData a.offset 4 = ty.code)
    (size : Nat) (has : field a.recordData (a.offset + 48) 8 = size)
    (d : Dev) (hd : d.NoFail) (hi : d.img = img) (ops : List Op) (hops : ∀ op ∈ ops, op.InRange) :
    ∃ v d', a.valueRel d = (.ok (.list v), d') ∧ v.len = size ∧
      (v.runRel d' ops).1 = (Flat.run
        { content := (content ntfs.clusterSize img (parts.flatMap Part.es)).take size
          len := size
          pos := 0 } ops).1 := by
  obtain ⟨v, d', h1, h2, h3, _⟩ :=
    C03_flat_file hm parts hne hp rest hr b h l hh a hal han h56 hanr hai hat size has d hd hi ops hops
  refine ⟨v, d', ?_, h2, ?_⟩
  · rcases C85_open a d with e | ⟨p, e⟩
    · rw [e, h1]
    · rw [h1] at e
      cases e
  · rw [C85_split ops v d' (by rw [h3]; exact Flat.run_no_panic _ _), h3]

set_option maxRecDepth 20000 in
/-- The value of C03 in a release build. -/
example : ∃ (a : Attr) (v : ALVal) (d' : Dev), a.valueRel ⟨exPartsImage, 0, [.chunk 1, .chunk 3]⟩ = (.ok (.list v), d') ∧
    (v.runRel d' [.seek (.end_ (-38)), .read [0, 0, 0, 0]]).1 = [⟨.ok 62, []⟩, ⟨.ok 4, [0x77, 0x77, 0x99, 0x99]⟩] := by
  have h3 := ListEncodes.cons ⟨0xA0, 0, 1, 5, []⟩ [] [] []
    ⟨by decide, by decide, by decide, by decide, by decide, by decide⟩ (by decide) .nil
  have h2 := ListEncodes.cons (exPart 320 2 9).entry [] _ _
    ⟨by decide, by decide, by decide, by decide, by decide, by decide⟩ (by decide) h3
  have h1 := ListEncodes.cons (exPart 192 1 7).entry [] _ _
    ⟨by decide, by decide, by decide, by decide, by decide, by decide⟩ (by decide) h2
  obtain ⟨v, d1, g1, _, g3⟩ := C85_split_file exPartsStored [exPart 192 1 7, exPart 320 2 9] (by simp)
    (by intro p hp; simp only [List.mem_cons, List.not_mem_nil, or_false] at hp
        rcases hp with rfl | rfl
        · exact exPart_stored.1
        · exact exPart_stored.2)
    [⟨0xA0, 0, 1, 5, []⟩] (by rintro e ⟨⟩; exact .inr ⟨.indexAllocation, rfl, by decide⟩) _ h1 (.resident _ none) rfl
    ⟨exPartsFile 192 1, 56, some (.resident _ none)⟩ rfl rfl
    (by decide) (by decide) (by decide) (by decide) 100 (by decide)
    ⟨exPartsImage, 0, [.chunk 1, .chunk 3]⟩ (by simp [Dev.NoFail]) rfl [.seek (.end_ (-38)), .read [0, 0, 0, 0]] (by decide)
  refine ⟨_, v, d1, g1, g3.trans ?_⟩
  decide +kernel

end NT
