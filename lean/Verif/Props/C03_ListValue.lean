import Verif.Lemmas.ListStream
import Verif.Props.C01_NonResident
import Verif.Props.C17_File
import Verif.Props.C24_ListEntries

namespace NT

open Spec

/-- One user operation on a value split over an attribute list. -/
def ALVal.step (v : ALVal) (d : Dev) : Op → Out × ALVal × Dev
  | .read buf =>
    let (r, v', buf', d') := v.read buf d
    ({ result := r, buf := buf' }, v', d')
  | .seek s =>
    let (r, v', d') := v.seek s d
    ({ result := r, buf := [] }, v', d')

/-- A history of user operations on a value split over an attribute list. -/
def ALVal.run (v : ALVal) (d : Dev) : List Op → List Out × ALVal × Dev
  | [] => ([], v, d)
  | op :: ops =>
    let (o, v', d') := v.step d op
    let (os, v'', d'') := v'.run d' ops
    (o :: os, v'', d'')

/-- Invariant of a value over the runs `all`, stored in the attributes that the list connects. -/
structure ALVal.Good (img : Bytes) (gs : List (List DataRun)) (v : ALVal) : Prop where
  fresh : Conn img v.ntfs v.inst v.ty gs v.initial
  some_ : gs ≠ []
  allOk : ∀ r ∈ gs.flatten, RunOk img r ∧ r.streamPosition = 0
  few : gs.flatten.length < v.runFuel
  size : v.st.dataSize = v.dataSize
  sizeLt : v.dataSize < U64
  posLt : v.st.streamPosition < U64
  curOk : ∀ r, v.st.run = some r → RunOk img r
  pend : ∃ post, v.Ahead img post ∧ (∀ r ∈ post, r ∈ gs.flatten) ∧ post.length ≤ gs.flatten.length ∧
    (Shift img (pending v.st post) gs.flatten v.st.streamPosition ∨
      v.dataSize ≤ v.st.streamPosition)

/-- The in-memory file that the value should behave like. -/
abbrev ALVal.flat (img : Bytes) (gs : List (List DataRun)) (v : ALVal) : Flat :=
  { content := (restBytes img gs.flatten).take v.dataSize, len := v.dataSize,
    pos := v.st.streamPosition }

theorem ALVal.runFuel_same {v w : ALVal} (h : v.Same w) : w.runFuel = v.runFuel := by
  unfold runFuel; rw [h.ntfs, h.initial]

theorem ALVal.read_good (img : Bytes) (gs : List (List DataRun)) (v : ALVal) (hg : v.Good img gs)
    (himg : img.length < U64) (buf : Bytes) (d : Dev) (hd : d.Ok img) :
    ∃ got v' d', got = (((restBytes img gs.flatten).take v.dataSize).drop v.st.streamPosition).take
        buf.length ∧
      v.read buf d = (.ok got.length, v', got ++ buf.drop got.length, d') ∧
      v'.Good img gs ∧ v'.dataSize = v.dataSize ∧
      v'.st.streamPosition = v.st.streamPosition + got.length ∧ d'.Ok img := by
  obtain ⟨post, hy, hsub, hlen, hp⟩ := hg.pend
  have hfew := hg.few
  obtain ⟨got, v', post', d', h1, h2, h3, h4, h5, h6, h7, h8, h9, h10⟩ :=
    ALVal.readLoop_ok img (buf.length + v.runFuel + v.leftFuel) v buf 0 d post hd himg hy hg.curOk
      (fun r hr => (hg.allOk r (hsub r hr)).1) (by omega) (by omega)
  rw [hg.size] at h1 h10
  have hgot : got = (((restBytes img gs.flatten).take v.dataSize).drop v.st.streamPosition).take
      buf.length := by
    rw [h1, Nat.sub_zero, List.drop_take, List.take_take]
    rcases hp with hp | hp
    · rw [hp.bytes]
    · have : v.dataSize - v.st.streamPosition = 0 := by omega
      simp [this]
  have hgl : got.length ≤ v.dataSize - v.st.streamPosition := by
    rw [h1, List.length_take]; omega
  have hb : overwrite buf 0 got = got ++ buf.drop got.length := by simp [overwrite]
  have e1 : v'.st.streamPosition = v.st.streamPosition + got.length := by rw [h5]
  have e2 : v'.st.dataSize = v.st.dataSize := by rw [h5]
  refine ⟨got, v', d', hgot, ?_, ?_, h4.dataSize, e1, h3⟩
  · unfold ALVal.read
    rw [h2, hb, Nat.zero_add]
  · refine ⟨?_, hg.some_, hg.allOk, ?_, ?_, ?_, ?_, h7, post', h6, ?_, by omega, ?_⟩
    · rw [h4.ntfs, h4.inst, h4.ty, h4.initial]; exact hg.fresh
    · rw [runFuel_same h4]; exact hg.few
    · rw [e2, h4.dataSize]; exact hg.size
    · rw [h4.dataSize]; exact hg.sizeLt
    · rw [e1]
      have := hg.posLt
      have := hg.sizeLt
      omega
    · intro r hr; exact hsub r (h8 r hr)
    · rw [e1, h4.dataSize]
      rcases h10 with h | h
      · rcases hp with hp | hp
        · left; exact h.trans hp
        · right; omega
      · right; omega

/-- The state after `new` and after `rewind`. -/
theorem ALVal.start_good (img : Bytes) (gs : List (List DataRun)) (v : ALVal)
    (hc : Conn img v.ntfs v.inst v.ty gs v.initial) (hne : gs ≠ [])
    (hcon : v.connected = some v.initial) (d : Dev) (hd : d.Ok img) :
    ∃ v1 post d1, nextAttribute (v, d) = (.ok true, (v1, d1)) ∧ d1.Ok img ∧ v.Same v1 ∧
      v1.st = { v.st with run := v1.st.run } ∧
      v1.Ahead img post ∧ v1.st.run.toList ++ post = gs.flatten ∧
      (∀ r, v1.st.run = some r → r ∈ gs.flatten) ∧ (∀ r ∈ post, r ∈ gs.flatten) ∧
      post.length ≤ gs.flatten.length ∧ v1.st.run ≠ none := by
  have hn := ALVal.nextAttribute_conn img v d hd v.initial gs hcon hc
  cases gs with
  | nil => exact absurd rfl hne
  | cons g gs =>
    dsimp only at hn
    obtain ⟨x, xs, a, l', d', hg, hn, hd', hr, hc'⟩ := hn
    subst hg
    refine ⟨_, xs ++ gs.flatten, d', hn, hd', ⟨rfl, rfl, rfl, rfl, rfl⟩, rfl, ⟨xs, gs, hr, hc', rfl⟩, ?_,
      ?_, ?_, ?_, nofun⟩
    · simp
    · intro r hr; injection hr with hr; subst hr; simp
    · intro r hr
      rw [List.flatten_cons, List.cons_append]
      exact List.mem_cons_of_mem _ hr
    · simp

theorem ALVal.rewind_good (img : Bytes) (gs : List (List DataRun)) (v : ALVal) (hg : v.Good img gs)
    (d : Dev) (hd : d.Ok img) :
    ∃ v1 post d1, v.rewind d = (.ok (), v1, d1) ∧ d1.Ok img ∧ v.Same v1 ∧
      v1.st.dataSize = v.dataSize ∧ v1.st.streamPosition = 0 ∧
      v1.Ahead img post ∧ v1.st.run.toList ++ post = gs.flatten ∧
      (∀ r, v1.st.run = some r → r ∈ gs.flatten) ∧ (∀ r ∈ post, r ∈ gs.flatten) ∧
      post.length ≤ gs.flatten.length ∧ v1.st.run ≠ none := by
  obtain ⟨v1, post, d1, h1, h2, h3, h4, h5, h6, h7, h8, h9, h10⟩ := ALVal.start_good img gs
    { v with connected := some v.initial, st := StreamState.new v.len } hg.fresh hg.some_ rfl d hd
  refine ⟨v1, post, d1, by simp only [rewind, h1], h2,
    ⟨h3.ntfs, h3.initial, h3.inst, h3.ty, h3.dataSize⟩, by rw [h4]; rfl, by rw [h4]; rfl, h5, h6, h7, h8, h9, h10⟩

theorem ALVal.seek_good (img : Bytes) (gs : List (List DataRun)) (v : ALVal) (hg : v.Good img gs)
    (s : SeekFrom) (hs : s.InRange) (d : Dev) (hd : d.Ok img) :
    if validTarget (seekTarget v.st.streamPosition v.dataSize s) then
      ∃ v' d', v.seek s d = (.ok (seekTarget v.st.streamPosition v.dataSize s).toNat, v', d') ∧
        d'.Ok img ∧ v'.Good img gs ∧ v'.dataSize = v.dataSize ∧
        v'.st.streamPosition = (seekTarget v.st.streamPosition v.dataSize s).toNat
    else v.seek s d = (.err (.io .invalidInput), v, d) := by
  have hspec := optimizeSeek_spec v.st s v.dataSize hs hg.posLt hg.sizeLt
  unfold ALVal.seek
  obtain ⟨t, ht⟩ : ∃ t, t = seekTarget v.st.streamPosition v.dataSize s := ⟨_, rfl⟩
  rw [← ht] at hspec ⊢
  by_cases hv : validTarget t
  case neg =>
    rw [if_neg hv] at hspec ⊢
    unfold ALVal.len
    rw [hspec]
  rw [if_pos hv] at hspec ⊢
  have hfew := hg.few
  have hposLt := hg.posLt
  simp only [validTarget] at hv
  by_cases hc : v.st.streamPosition ≤ t.toNat ∧ t.toNat - v.st.streamPosition < I63
  · -- forward
    rw [if_pos hc] at hspec
    unfold ALVal.len
    rw [hspec]
    dsimp only
    rw [if_pos (by omega)]
    obtain ⟨post, hy, hsub, hlen, hp⟩ := hg.pend
    have hn : (((t.toNat - v.st.streamPosition : Nat) : Int)).toNat = t.toNat - v.st.streamPosition :=
      by omega
    rw [hn]
    obtain ⟨v2, post', d2, h1, hd2, hs2, h2, h3, h4, h5, h6, h7⟩ :=
      ALVal.seekLoop_ok img v.runFuel v
        (.current ((t.toNat - v.st.streamPosition : Nat) : Int)) (t.toNat - v.st.streamPosition) d post
        hd hy hg.curOk (fun r hr => hg.allOk r (hsub r hr)) trivial (fun _ _ => hc.2) (by omega)
    rw [h1]
    dsimp only
    have e1 : v2.st.streamPosition = v.st.streamPosition := by rw [h2]
    have e2 : v2.st.dataSize = v.st.dataSize := by rw [h2]
    have e5 : v.st.streamPosition + (t.toNat - v.st.streamPosition) = t.toNat := by omega
    rw [e1, e5, if_pos (by omega)]
    refine ⟨_, d2, rfl, hd2, ⟨?_, hg.some_, hg.allOk, ?_, ?_, ?_, ?_, h4, post', h3, ?_, by omega, ?_⟩,
      hs2.dataSize, rfl⟩
    · dsimp only; rw [hs2.ntfs, hs2.inst, hs2.ty, hs2.initial]; exact hg.fresh
    · have : runFuel { v2 with st := { v2.st with streamPosition := t.toNat } } = v.runFuel :=
        runFuel_same (w := { v2 with st := { v2.st with streamPosition := t.toNat } })
          ⟨hs2.ntfs, hs2.initial, hs2.inst, hs2.ty, hs2.dataSize⟩
      rw [this]; exact hfew
    · dsimp only; rw [e2, hs2.dataSize]; exact hg.size
    · dsimp only; rw [hs2.dataSize]; exact hg.sizeLt
    · dsimp only; omega
    · intro r hr; exact hsub r (h5 r hr)
    · dsimp only
      rw [hs2.dataSize]
      rcases hp with hp | hp
      · left
        have : pending { run := v2.st.run, streamPosition := t.toNat, dataSize := v2.st.dataSize } post'
          = pending v2.st post' := rfl
        rw [this]
        exact e5 ▸ h7.trans hp
      · right; omega
  · -- from the start
    rw [if_neg hc] at hspec
    unfold ALVal.len
    rw [hspec]
    dsimp only
    obtain ⟨v1, post, d1, g1, gd, gs1, g4, g5, g6, g7, g8, g9, g10, _⟩ := ALVal.rewind_good img gs v hg d hd
    rw [g1]
    dsimp only
    obtain ⟨v2, post', d2, h1, hd2, hs2, h2, h3, h4, h5, h6, h7⟩ :=
      ALVal.seekLoop_ok img v.runFuel v1 (.start t.toNat) t.toNat d1 post gd g6
        (fun r hr => (hg.allOk r (g8 r hr)).1) (fun r hr => hg.allOk r (g9 r hr))
        (fun r hr => (hg.allOk r (g8 r hr)).2) (by intro n hn; cases hn) (by omega)
    rw [h1]
    dsimp only
    have hs := gs1.trans hs2
    have e2 : v2.st.dataSize = v.dataSize := by rw [h2]; exact g4
    refine ⟨_, d2, rfl, hd2, ⟨?_, hg.some_, hg.allOk, ?_, ?_, ?_, ?_, h4, post', h3, ?_, by omega, ?_⟩,
      hs.dataSize, rfl⟩
    · dsimp only; rw [hs.ntfs, hs.inst, hs.ty, hs.initial]; exact hg.fresh
    · have : runFuel { v2 with st := { v2.st with streamPosition := t.toNat } } = v.runFuel :=
        runFuel_same (w := { v2 with st := { v2.st with streamPosition := t.toNat } })
          ⟨hs.ntfs, hs.initial, hs.inst, hs.ty, hs.dataSize⟩
      rw [this]; exact hfew
    · dsimp only; rw [e2, hs.dataSize]
    · dsimp only; rw [hs.dataSize]; exact hg.sizeLt
    · dsimp only; omega
    · intro r hr; exact g9 r (h5 r hr)
    · left
      have : pending { run := v2.st.run, streamPosition := t.toNat, dataSize := v2.st.dataSize } post'
          = pending v2.st post' := rfl
      dsimp only
      rw [this]
      unfold pending at h7
      rwa [g7] at h7

/-- One step of a value in a good state is one step of the in-memory file. -/
theorem ALVal.step_refines (img : Bytes) (gs : List (List DataRun)) (v : ALVal) (hg : v.Good img gs)
    (himg : img.length < U64) (op : Op) (hop : op.InRange) (d : Dev) (hd : d.Ok img) :
    (v.step d op).1 = ((v.flat img gs).step op).1 ∧
      ((v.step d op).2.1.flat img gs) = ((v.flat img gs).step op).2 ∧
      (v.step d op).2.1.Good img gs ∧ (v.step d op).2.2.Ok img := by
  cases op with
  | read buf =>
    obtain ⟨got, v', d', h1, h2, h3, h5, h6, h7⟩ := ALVal.read_good img gs v hg himg buf d hd
    simp only [ALVal.step, h2, Flat.step, ← h1]
    refine ⟨trivial, ?_, h3, h7⟩
    unfold ALVal.flat
    rw [h5, h6]
  | seek s =>
    have h := ALVal.seek_good img gs v hg s hop d hd
    simp only [ALVal.step, Flat.step]
    by_cases hv : validTarget (seekTarget v.st.streamPosition v.dataSize s)
    · rw [if_pos hv] at h
      obtain ⟨v', d', h1, hd', h2, h4, h5⟩ := h
      rw [if_pos hv, h1]
      dsimp only
      refine ⟨rfl, ?_, h2, hd'⟩
      unfold ALVal.flat
      rw [h4, h5]
    · rw [if_neg hv] at h
      rw [if_neg hv, h]
      exact ⟨rfl, rfl, hg, hd⟩

theorem ALVal.run_refines (img : Bytes) (gs : List (List DataRun)) (himg : img.length < U64)
    (ops : List Op) (hops : ∀ op ∈ ops, op.InRange) (v : ALVal) (hg : v.Good img gs) (d : Dev)
    (hd : d.Ok img) :
    (v.run d ops).1 = ((v.flat img gs).run ops).1 ∧
      (v.run d ops).2.1.flat img gs = ((v.flat img gs).run ops).2 ∧
      (v.run d ops).2.1.Good img gs := by
  induction ops generalizing v d with
  | nil => exact ⟨rfl, rfl, hg⟩
  | cons op ops ih =>
    obtain ⟨h1, h2, h3, h4⟩ := v.step_refines img gs hg himg op (hops op (by simp)) d hd
    obtain ⟨i1, i2, i3⟩ := ih (fun o ho => hops o (by simp [ho])) (v.step d op).2.1 h3
      (v.step d op).2.2 h4
    simp only [ALVal.run, Flat.run]
    rw [h1, i1, i2, h2]
    exact ⟨rfl, rfl, i3⟩

/-- One of the attributes over which a value is split: its entry in the attribute list, the file
record that holds it, the offsets of the attributes before it in that record, its offset and length,
the offset of its data runs, and what they describe. -/
structure Part where
  entry : LEntry
  file : NFile
  pre : List Nat
  off : Nat
  len : Nat
  start : Nat
  es : List Extent

/-- The record number in the entry. -/
abbrev Part.number (p : Part) : Nat := p.entry.ref % 2 ^ 48

/-- How the part is stored: the MFT (extents `mftEs`) has its record at the number in the entry, the
record is accepted as `p.file`, the first attribute in it with this type and instance is non-resident
and at `p.off`, and its data runs describe at least one extent inside the image. -/
structure Part.Stored (ntfs : Ntfs) (img : Bytes) (mftEs : List Extent) (inst : Nat) (ty : AttrType)
    (p : Part) : Prop where
  entryInst : p.entry.inst = inst
  entryTy : p.entry.ty = ty.code
  numberLt : p.number * ntfs.fileRecordSize < U64
  record : ∃ a, addressOf ntfs.clusterSize mftEs (p.number * ntfs.fileRecordSize) = some a ∧
    a + ntfs.fileRecordSize ≤ img.length ∧
    NFile.ofBytes ntfs ((img.drop a).take ntfs.fileRecordSize) a p.number = .ok p.file
  chain : Chain p.file.recordData (field p.file.recordData 20 2) p.pre p.off
  attr : AttrAt p.file.recordData p.off p.len
  first : ∀ q ∈ p.pre, NotWanted p.file.recordData q typeCodes ty.code none (some inst)
  attrTy : field p.file.recordData p.off 4 = ty.code
  attrInst : field p.file.recordData (p.off + 14) 2 = inst
  nonRes : field p.file.recordData (p.off + 8) 1 ≠ 0
  header : 34 ≤ p.len
  runsAt : field p.file.recordData (p.off + 32) 2 = p.start
  runsIn : p.start ≤ p.len
  runs : StoredAs ntfs.clusterSize img
    ((p.file.recordData.drop (p.off + p.start)).take (p.len - p.start)) p.es
  some_ : p.es ≠ []

/-- What the code finds when it opens the attribute of an entry. -/
theorem Part.Stored.opens {ntfs : Ntfs} {img : Bytes} {mft : NFile} {mftEs : List Extent}
    {mpre : List Nat} {moff mlen mstart : Nat} (hm : MftStored ntfs img mft mftEs mpre moff mlen mstart)
    {inst : Nat} {ty : AttrType} {p : Part} (h : p.Stored ntfs img mftEs inst ty) (e : ListEntry)
    (he : e.view = p.entry) :
    e.inst = inst ∧ e.ty = .ok ty ∧
    ∃ x xs a, p.es.map (runOf ntfs.clusterSize) = x :: xs ∧ RunsLeft ntfs.clusterSize (some a) xs ∧
      ∀ d : Dev, d.Ok img → ∃ d', d'.Ok img ∧ ALVal.openEntry ntfs e d = (.ok (some (x, a)), d') := by
  have hinst : e.inst = inst := by rw [← h.entryInst, ← he]; rfl
  have hty : e.ty = .ok ty := by
    have : e.tyCode = ty.code := by rw [← h.entryTy, ← he]; rfl
    unfold ListEntry.ty
    rw [AttrType.ofCode_eq_some.2 this]
    rfl
  have hnum : e.ref.fileRecordNumber = p.number := by
    have h1 : leNat e.ref.bytes = p.entry.ref := by rw [← he]; rfl
    unfold FileRef.fileRecordNumber Part.number
    rw [h1]
    exact Nat.and_two_pow_sub_one_eq_mod _ 48
  refine ⟨hinst, hty, ?_⟩
  obtain ⟨a0, ha1, ha2, ha3⟩ := h.record
  obtain ⟨_, r, _, hfr, h32, _⟩ := (NFile.ofBytes_ok_iff _ _ _ _ _).1 ha3
  have hnt : p.file.ntfs = ntfs := by rw [hfr]
  have hfn : p.file.number = p.number := by rw [hfr]
  have hl32 : 32 ≤ p.file.recordData.length := by rw [hfr]; exact h32
  have hal := h.attr.length
  have hah := h.header
  have hai := h.attr.inside
  have hrin := h.runsIn
  have hHI : (Attr.mk p.file p.off none).HeaderIn := by
    unfold Attr.HeaderIn; simp only [Attr.recordData]; omega
  have hfind : p.file.findResidentAttribute ty none (some inst) = .ok ⟨p.file, p.off, none⟩ :=
    (C22_first_match p.file hl32 ty none (some inst) _).2 ⟨p.pre, p.off, h.chain, ⟨p.len, h.attr⟩, rfl,
      ⟨h.attrTy, by intro i hi; cases hi; exact h.attrInst, by simp⟩, h.first⟩
  have hres : (Attr.mk p.file p.off none).isResident = .ok false := by
    rw [Attr.isResident_eq hHI]
    have : (field p.file.recordData (p.off + 8) 1 == 0) = false := by simpa using h.nonRes
    simp only [Attr.recordData, this]
  have hdp := Attr.nonResidentValueDataAndPosition_eq hHI h.nonRes
    (by simp only [Attr.recordData]; omega) p.start p.len h.runsAt hal hai
  rw [if_neg (by omega)] at hdp
  have hnew : Attr.new p.file p.off none = .ok ⟨p.file, p.off, none⟩ := by
    have hhd := h.attr.header
    exact Attr.new_ok_iff.2 ⟨rfl, hHI, by simp only [Attr.recordData]; omega,
      by simp only [Attr.recordData]; omega⟩
  obtain ⟨data, hdata⟩ : ∃ data, data =
    (p.file.recordData.drop (p.off + p.start)).take (p.len - p.start) := ⟨_, rfl⟩
  obtain ⟨position, hposition⟩ : ∃ position,
    position = Pos.add p.file.position (p.off + p.start) := ⟨_, rfl⟩
  simp only [Attr.recordData] at hdp
  rw [← hdata, ← hposition] at hdp
  have hruns := h.runs
  rw [← hdata] at hruns
  have hy := yields_encoded (DataRuns.new ntfs.clusterSize data position) p.es hruns.enc
    hruns.clusterPos hruns.rep hruns.nonZero
  cases hes : p.es with
  | nil => exact absurd hes h.some_
  | cons e0 es0 =>
    rw [hes] at hy
    change Yields (DataRuns.new ntfs.clusterSize data position)
      (runOf ntfs.clusterSize e0 :: es0.map (runOf ntfs.clusterSize)) at hy
    cases hy with
    | @step _ r' _ _ hn hy' =>
      have hst := (DataRuns.new ntfs.clusterSize data position).next_static
      rw [hn] at hst
      dsimp only at hst
      refine ⟨_, _, ⟨p.file, p.off, some r'.state⟩, rfl, ⟨data, position, ?_, ?_⟩, ?_⟩
      · rw [hnew]; exact hdp
      · rw [hst] at hy'; exact hy'
      · intro d hd
        obtain ⟨d', hf, hi', hd'⟩ := Ntfs.file_eq ntfs img mft mftEs mpre moff mlen mstart hm d hd.2 hd.1
          p.number
        have hlt := h.numberLt
        rw [if_neg (by omega), ha1] at hf
        dsimp only at hf
        rw [if_pos ha2, ha3] at hf
        refine ⟨d', ⟨hi', hd'⟩, ?_⟩
        unfold ALVal.openEntry ListEntry.toFile ListEntry.toAttribute
        rw [hnum, StM.bind_of_ok hf]
        rw [StM.bind_of_ok (a := Attr.mk p.file p.off none) (s' := d') (by
          rw [StM.lift_apply, hfn, if_pos rfl, hty, Res.bind_ok, hinst, hfind])]
        rw [StM.bind_of_ok (a := false) (s' := d') (by rw [StM.lift_apply, hres])]
        rw [if_neg (by simp)]
        rw [StM.bind_of_ok (a := (data, position)) (s' := d') (by rw [StM.lift_apply, hdp])]
        dsimp only
        rw [hn]
        rfl

theorem AttrList.Holds.remaining {img : Bytes} {l : AttrList} {b : Bytes} (h : l.Holds img b) :
    l.remaining = b.length := by
  cases l with
  | resident s p => change s = b at h; subst h; rfl
  | nonResident v =>
    obtain ⟨_, all, _, h2, h3⟩ := h
    rw [← h3, List.length_drop, List.length_take]
    simp only [AttrList.remaining, NonRes.len, NonRes.streamPosition]
    omega

/-- One step of the iterator over a list that starts with an encoded entry. -/
theorem AttrList.next_encoded (img : Bytes) (e : LEntry) (es : List LEntry) (b : Bytes)
    (h : ListEncodes (e :: es) b) (l : AttrList) (hh : l.Holds img b) (d : Dev) (hd : d.Ok img) :
    ∃ e' l' d' b', AttrList.next (l, d) = (.ok (some e'), (l', d')) ∧ d'.Ok img ∧ e'.view = e ∧
      ListEncodes es b' ∧ l'.Holds img b' ∧ b'.length + 26 ≤ b.length := by
  cases h with
  | cons _ pad _ rest hf hs ht =>
    obtain ⟨g1, g2, g3, g4⟩ := entryAt_encode e pad rest hf hs l.position
    obtain ⟨d', h1, h2, _, _, h3⟩ := AttrList.next_holds img l _ hh d hd.2 hd.1
    have hlen : (e.encode pad ++ rest).length = e.size pad.length + rest.length := by
      rw [List.length_append, g4]
    have hne : e.encode pad ++ rest ≠ [] := by
      intro h'
      rw [h'] at hlen
      simp only [LEntry.size, List.length_nil] at hlen
      omega
    obtain ⟨l', h4, h5, _⟩ := h3 _ hne g1 (by rw [g3, List.length_append]; omega)
    rw [g3, List.drop_left] at h5
    exact ⟨_, l', d', rest, h4, ⟨h2, h1⟩, g2, ht, h5, by rw [hlen]; simp only [LEntry.size]; omega⟩

/-- What follows the entries of a value in the list: nothing, or an entry with another instance
number or another (known) type. -/
def OtherValue (inst : Nat) (ty : AttrType) (rest : List LEntry) : Prop :=
  ∀ e, rest.head? = some e → e.inst ≠ inst ∨ ∃ t : AttrType, e.ty = t.code ∧ t ≠ ty

theorem conn_of_parts {ntfs : Ntfs} {img : Bytes} {mft : NFile} {mftEs : List Extent}
    {mpre : List Nat} {moff mlen mstart : Nat} (hm : MftStored ntfs img mft mftEs mpre moff mlen mstart)
    {inst : Nat} {ty : AttrType} (parts : List Part)
    (hp : ∀ p ∈ parts, p.Stored ntfs img mftEs inst ty) (rest : List LEntry)
    (hr : OtherValue inst ty rest) (b : Bytes)
    (h : ListEncodes (parts.map Part.entry ++ rest) b) (l : AttrList) (hh : l.Holds img b) :
    Conn img ntfs inst ty (parts.map (fun p => p.es.map (runOf ntfs.clusterSize))) l := by
  induction parts generalizing b l with
  | nil =>
    intro d hd
    rw [List.map_nil, List.nil_append] at h
    cases rest with
    | nil =>
      cases h with
      | nil =>
        obtain ⟨d', h1, h2, h3, _⟩ := AttrList.next_holds img l [] hh d hd.2 hd.1
        exact .inl ⟨d', ⟨h2, h1⟩, h3 rfl⟩
    | cons e es =>
      obtain ⟨e', l', d', b', g1, g2, g3, _⟩ := AttrList.next_encoded img e es b h l hh d hd
      refine .inr ⟨e', l', d', g2, g1, ?_⟩
      rcases hr e rfl with h | ⟨t, h, hne⟩
      · left; intro h'; apply h; rw [← h', ← g3]; rfl
      · right
        refine ⟨t, ?_, hne⟩
        have : e'.tyCode = t.code := by rw [← h, ← g3]; rfl
        unfold ListEntry.ty
        rw [AttrType.ofCode_eq_some.2 this]
        rfl
  | cons p ps ih =>
    intro d hd
    obtain ⟨e', l', d', b', g1, g2, g3, g4, g5, _⟩ :=
      AttrList.next_encoded img p.entry (ps.map Part.entry ++ rest) b h l hh d hd
    obtain ⟨o1, o2, o3⟩ := (hp p (by simp)).opens hm e' g3
    exact ⟨e', l', d', g2, g1, o1, o2, o3, ih (fun q hq => hp q (by simp [hq])) b' g4 l' g5⟩

theorem listEncodes_length (es : List LEntry) (b : Bytes) (h : ListEncodes es b) :
    26 * es.length ≤ b.length := by
  induction h with
  | nil => simp
  | cons e pad es rest hf hs _ ih =>
    have := (entryAt_encode e pad rest hf hs none).2.2.2
    rw [List.length_append, this]
    simp only [LEntry.size, List.length_cons]
    omega

/-- The fuel of the loops suffices. -/
theorem few_runs {ntfs : Ntfs} {img : Bytes} {mftEs : List Extent}
    {inst : Nat} {ty : AttrType} (parts : List Part)
    (hp : ∀ p ∈ parts, p.Stored ntfs img mftEs inst ty) :
    (parts.map (fun p => p.es.map (runOf ntfs.clusterSize))).flatten.length ≤
      parts.length * ntfs.fileRecordSize := by
  induction parts with
  | nil => simp
  | cons p ps ih =>
    have h := hp p (by simp)
    have i := ih (fun q hq => hp q (by simp [hq]))
    have he := encodes_length _ _ _ h.runs.enc
    rw [List.length_take, List.length_drop] at he
    obtain ⟨a0, ha1, ha2, ha3⟩ := h.record
    obtain ⟨_, r, hfix, hfr, _, _⟩ := (NFile.ofBytes_ok_iff _ _ _ _ _).1 ha3
    have hl := (Record.fixup_length hfix).1
    dsimp only at hl
    rw [List.length_take, List.length_drop] at hl
    have hrd : p.file.recordData.length = r.data.length := by rw [hfr]
    simp only [List.map_cons, List.flatten_cons, List.length_append, List.length_map, List.length_cons]
    rw [Nat.add_mul]
    omega

/-- Opening such a value succeeds and establishes the invariant. There is a current run, and it is one of the runs of the value. -/
theorem ALVal.value_good_run {ntfs : Ntfs} {img : Bytes} {mft : NFile} {mftEs : List Extent}
    {mpre : List Nat} {moff mlen mstart : Nat} (hm : MftStored ntfs img mft mftEs mpre moff mlen mstart)
    {inst : Nat} {ty : AttrType} (parts : List Part) (hne : parts ≠ [])
    (hp : ∀ p ∈ parts, p.Stored ntfs img mftEs inst ty) (rest : List LEntry)
    (hr : OtherValue inst ty rest) (b : Bytes)
    (h : ListEncodes (parts.map Part.entry ++ rest) b) (l : AttrList) (hh : l.Holds img b)
    (a : Attr) (hal : a.list = some l) (han : a.file.ntfs = ntfs)
    (h56 : a.offset + 56 ≤ a.recordData.length) (hanr : field a.recordData (a.offset + 8) 1 ≠ 0)
    (hai : field a.recordData (a.offset + 14) 2 = inst) (hat : field a.recordData a.offset 4 = ty.code)
    (size : Nat) (has : field a.recordData (a.offset + 48) 8 = size)
    (d : Dev) (hd : d.NoFail) (hi : d.img = img) :
    ∃ v d', a.value d = (.ok (.list v), d') ∧ d'.Ok img ∧ v.dataSize = size ∧
      v.st.streamPosition = 0 ∧ ∃ gs, v.Good img gs ∧
        gs.flatten = (parts.flatMap Part.es).map (runOf ntfs.clusterSize) ∧
        (∀ r, v.st.run = some r → r ∈ gs.flatten) ∧ v.st.run ≠ none := by
  have hHI : a.HeaderIn := by unfold Attr.HeaderIn; omega
  have hsize : size < U64 := by
    rw [← has]
    exact field_lt (d := a.recordData) (a := a.offset + 48) (n := 8) (by omega)
  have hconn := conn_of_parts hm parts hp rest hr b h l hh
  obtain ⟨gs, hgs⟩ : ∃ gs, gs = parts.map (fun p => p.es.map (runOf ntfs.clusterSize)) := ⟨_, rfl⟩
  have hflat : gs.flatten = (parts.flatMap Part.es).map (runOf ntfs.clusterSize) := by
    rw [hgs, List.map_flatMap, List.flatMap_def]
  rw [← hgs] at hconn
  have hgne : gs ≠ [] := by
    rw [hgs]; intro h'; exact hne (List.map_eq_nil_iff.1 h')
  have hallOk : ∀ r ∈ gs.flatten, RunOk img r ∧ r.streamPosition = 0 := by
    intro r hrm
    rw [hflat] at hrm
    obtain ⟨e, he, rfl⟩ := List.mem_map.1 hrm
    obtain ⟨p, hpm, hep⟩ := List.mem_flatMap.1 he
    exact (hp p hpm).runs.runsOk _ (List.mem_map.2 ⟨e, hep, rfl⟩)
  have hfew := few_runs parts hp
  rw [← hgs] at hfew
  have hlen := listEncodes_length _ _ h
  rw [List.length_append, List.length_map] at hlen
  have hrem := hh.remaining
  obtain ⟨v1, post, d1, s1, s2, s3, s4, s5, s6, s7, s8, s9, s10⟩ := ALVal.start_good img gs
    { ntfs, initial := l, connected := some l, inst, ty, dataSize := size, attrState := none,
      st := StreamState.new size } hconn hgne rfl d ⟨hi, hd⟩
  have hgood : v1.Good img gs := by
    have e1 : v1.st.streamPosition = 0 := by rw [s4]; rfl
    have e2 : v1.st.dataSize = size := by rw [s4]; rfl
    refine ⟨?_, hgne, hallOk, ?_, ?_, ?_, ?_, fun r hr => (hallOk r (s7 r hr)).1, post, s5, s8, s9, .inl ?_⟩
    · rw [s3.ntfs, s3.inst, s3.ty, s3.initial]; exact hconn
    · have : v1.runFuel = (l.remaining + 2) * (ntfs.fileRecordSize + 2) := by
        unfold ALVal.runFuel; rw [s3.ntfs, s3.initial]
      rw [this, hrem]
      have hle : parts.length ≤ b.length + 2 := by omega
      have := Nat.mul_le_mul hle (Nat.le_add_right ntfs.fileRecordSize 2)
      have h2 : parts.length * ntfs.fileRecordSize + 1 ≤ (b.length + 2) * (ntfs.fileRecordSize + 2) := by
        have h3 : parts.length * ntfs.fileRecordSize ≤ b.length * ntfs.fileRecordSize :=
          Nat.mul_le_mul_right _ (by omega)
        have h4 : b.length * ntfs.fileRecordSize + 1 ≤ (b.length + 2) * (ntfs.fileRecordSize + 2) := by
          rw [Nat.add_mul, Nat.mul_add]; omega
        omega
      omega
    · rw [e2, s3.dataSize]
    · rw [s3.dataSize]; exact hsize
    · rw [e1]; decide
    · rw [e1]
      have : pending v1.st post = gs.flatten := s6
      rw [this]; exact Shift.refl _ _
  have hval : a.value d = (.ok (.list v1), d1) := by
    unfold Attr.value
    rw [hal]
    dsimp only
    rw [StM.bind_of_ok (a := size) (s' := d) (by
      rw [StM.lift_apply, Attr.nonResidentValueDataSize_eq hHI hanr h56, has])]
    rw [StM.bind_of_ok (a := inst) (s' := d) (by rw [StM.lift_apply, Attr.inst_eq hHI, hai])]
    rw [StM.bind_of_ok (a := ty) (s' := d) (by
      rw [StM.lift_apply, (Attr.ty_ok_iff hHI).2 hat])]
    rw [StM.bind_of_ok (a := v1) (s' := d1) (by
      rw [han]
      unfold ALVal.new
      dsimp only
      rw [s1])]
    rfl
  exact ⟨v1, d1, hval, s2, s3.dataSize, by rw [s4]; rfl, gs, hgood, hflat, s7, s10⟩

theorem ALVal.value_good {ntfs : Ntfs} {img : Bytes} {mft : NFile} {mftEs : List Extent}
    {mpre : List Nat} {moff mlen mstart : Nat} (hm : MftStored ntfs img mft mftEs mpre moff mlen mstart)
    {inst : Nat} {ty : AttrType} (parts : List Part) (hne : parts ≠ [])
    (hp : ∀ p ∈ parts, p.Stored ntfs img mftEs inst ty) (rest : List LEntry)
    (hr : OtherValue inst ty rest) (b : Bytes)
    (h : ListEncodes (parts.map Part.entry ++ rest) b) (l : AttrList) (hh : l.Holds img b)
    (a : Attr) (hal : a.list = some l) (han : a.file.ntfs = ntfs)
    (h56 : a.offset + 56 ≤ a.recordData.length) (hanr : field a.recordData (a.offset + 8) 1 ≠ 0)
    (hai : field a.recordData (a.offset + 14) 2 = inst) (hat : field a.recordData a.offset 4 = ty.code)
    (size : Nat) (has : field a.recordData (a.offset + 48) 8 = size)
    (d : Dev) (hd : d.NoFail) (hi : d.img = img) :
    ∃ v d', a.value d = (.ok (.list v), d') ∧ d'.Ok img ∧ v.dataSize = size ∧
      v.st.streamPosition = 0 ∧ ∃ gs, v.Good img gs ∧
        gs.flatten = (parts.flatMap Part.es).map (runOf ntfs.clusterSize) := by
  obtain ⟨v, d', h1, h2, h3, h4, gs, h5, h6, _⟩ :=
    ALVal.value_good_run hm parts hne hp rest hr b h l hh a hal han h56 hanr hai hat size has d hd hi
  exact ⟨v, d', h1, h2, h3, h4, gs, h5, h6⟩

/-- C03: an attribute of the flattened iteration whose value is split over the attributes `parts` of
an attribute list (`l` iterates over the list from the first of their entries on; `rest` are the
entries behind them) opens without error, and every history of reads and seeks on its value gives
exactly the results of the same history on an in-memory file whose contents are the clusters of all
runs of all parts in list order, cut at the data size that the attribute states. -/
theorem C03_flat_file {ntfs : Ntfs} {img : Bytes} {mft : NFile} {mftEs : List Extent}
    {mpre : List Nat} {moff mlen mstart : Nat} (hm : MftStored ntfs img mft mftEs mpre moff mlen mstart)
    {inst : Nat} {ty : AttrType} (parts : List Part) (hne : parts ≠ [])
    (hp : ∀ p ∈ parts, p.Stored ntfs img mftEs inst ty) (rest : List LEntry)
    (hr : OtherValue inst ty rest) (b : Bytes)
    (h : ListEncodes (parts.map Part.entry ++ rest) b) (l : AttrList) (hh : l.Holds img b)
    (a : Attr) (hal : a.list = some l) (han : a.file.ntfs = ntfs)
    (h56 : a.offset + 56 ≤ a.recordData.length) (hanr : field a.recordData (a.offset + 8) 1 ≠ 0)
    (hai : field a.recordData (a.offset + 14) 2 = inst) (hat : field a.recordData a.offset 4 = ty.code)
    (size : Nat) (has : field a.recordData (a.offset + 48) 8 = size)
    (d : Dev) (hd : d.NoFail) (hi : d.img = img) (ops : List Op) (hops : ∀ op ∈ ops, op.InRange) :
    ∃ v d', a.value d = (.ok (.list v), d') ∧ v.len = size ∧
      (v.run d' ops).1 = (Flat.run
        { content := (content ntfs.clusterSize img (parts.flatMap Part.es)).take size
          len := size
          pos := 0 } ops).1 ∧
      (v.run d' ops).2.1.streamPosition = (Flat.run
        { content := (content ntfs.clusterSize img (parts.flatMap Part.es)).take size
          len := size
          pos := 0 } ops).2.pos := by
  obtain ⟨v1, d1, hval, hd1, hsz, hpos, gs, hgood, hflat⟩ :=
    ALVal.value_good hm parts hne hp rest hr b h l hh a hal han h56 hanr hai hat size has d hd hi
  refine ⟨v1, d1, hval, hsz, ?_⟩
  obtain ⟨i1, i2, _⟩ := ALVal.run_refines img gs hm.runs.imgLt ops hops v1 hgood d1 hd1
  have hf : v1.flat img gs =
      { content := (content ntfs.clusterSize img (parts.flatMap Part.es)).take size
        len := size
        pos := 0 } := by
    unfold ALVal.flat
    rw [hflat, restBytes_runOf, hsz, hpos]
  rw [hf] at i1 i2
  exact ⟨i1, by rw [← i2]⟩

/-- An image with clusters of 64 bytes and records of 128 bytes: the MFT is clusters 1-6, records 1
and 2 each hold a part of a value of 100 bytes, stored in clusters 7 and 9. -/
def exPartsImage : Bytes :=
  List.replicate 64 0 ++
  [0x46, 0x49, 0x4C, 0x45, 48, 0, 1, 0,  0, 0, 0, 0, 0, 0, 0, 0,
   1, 0, 1, 0, 56, 0, 1, 0,  128, 0, 0, 0, 128, 0, 0, 0,
   0, 0, 0, 0, 0, 0, 0, 0,  3, 0, 0, 0, 0, 0, 0, 0,
   0, 0, 0, 0, 0, 0, 0, 0,
   0x80, 0, 0, 0, 72, 0, 0, 0,  1, 0, 0, 0, 0, 0, 1, 0,
   0, 0, 0, 0, 0, 0, 0, 0,  3, 0, 0, 0, 0, 0, 0, 0,
   60, 0, 0, 0, 0, 0, 0, 0,  0, 1, 0, 0, 0, 0, 0, 0,
   128, 0, 0, 0, 0, 0, 0, 0,  0, 0, 0, 0,
   17, 6, 1, 0, 0, 0, 0, 0, 0, 0, 0, 0] ++
  [0x46, 0x49, 0x4C, 0x45, 48, 0, 1, 0,  0, 0, 0, 0, 0, 0, 0, 0,
   1, 0, 1, 0, 56, 0, 1, 0,  128, 0, 0, 0, 128, 0, 0, 0,
   0, 0, 0, 0, 0, 0, 0, 0,  3, 0, 0, 0, 0, 0, 0, 0,
   0, 0, 0, 0, 0, 0, 0, 0,
   0x80, 0, 0, 0, 72, 0, 0, 0,  1, 0, 0, 0, 0, 0, 5, 0,
   0, 0, 0, 0, 0, 0, 0, 0,  3, 0, 0, 0, 0, 0, 0, 0,
   60, 0, 0, 0, 0, 0, 0, 0,  0, 1, 0, 0, 0, 0, 0, 0,
   100, 0, 0, 0, 0, 0, 0, 0,  0, 0, 0, 0,
   17, 1, 7, 0, 0, 0, 0, 0, 0, 0, 0, 0] ++
  [0x46, 0x49, 0x4C, 0x45, 48, 0, 1, 0,  0, 0, 0, 0, 0, 0, 0, 0,
   1, 0, 1, 0, 56, 0, 1, 0,  128, 0, 0, 0, 128, 0, 0, 0,
   0, 0, 0, 0, 0, 0, 0, 0,  3, 0, 0, 0, 0, 0, 0, 0,
   0, 0, 0, 0, 0, 0, 0, 0,
   0x80, 0, 0, 0, 72, 0, 0, 0,  1, 0, 0, 0, 0, 0, 5, 0,
   0, 0, 0, 0, 0, 0, 0, 0,  3, 0, 0, 0, 0, 0, 0, 0,
   60, 0, 0, 0, 0, 0, 0, 0,  0, 1, 0, 0, 0, 0, 0, 0,
   0, 0, 0, 0, 0, 0, 0, 0,  0, 0, 0, 0,
   17, 1, 9, 0, 0, 0, 0, 0, 0, 0, 0, 0] ++
  List.replicate 64 0x77 ++ List.replicate 64 0x88 ++ List.replicate 64 0x99

/-- The volume of `exPartsImage`. -/
def exPartsNtfs : Ntfs :=
  { clusterSize := 64, sectorSize := 64, size := 640, mftPosition := some 64,
    fileRecordSize := 128, serialNumber := 0, upcaseTable := none }

/-- The record at an offset of `exPartsImage`. -/
def exPartsFile (off number : Nat) : NFile :=
  ⟨exPartsNtfs, ⟨(exPartsImage.drop off).take 128, some off⟩, number⟩

set_option maxRecDepth 20000 in
theorem exPartsStored : MftStored exPartsNtfs exPartsImage (exPartsFile 64 0) [⟨6, some 1⟩] [] 56 72 60 :=
  { mftPos := ⟨64, rfl, by decide, by decide⟩
    sizePos := by decide
    chain := .nil 56
    attr := ⟨by decide, by decide, by decide, by decide⟩
    first := by simp
    ty := by decide
    nonRes := by decide
    header := by decide
    runsAt := by decide
    runsIn := by decide
    runs := {
      clusterPos := by decide
      enc := by
        have hb : List.take (72 - 60) (List.drop (56 + 60) (exPartsFile 64 0).recordData) =
            [0x11, 6, 1, 0, 0, 0, 0, 0, 0, 0, 0, 0] := by decide
        rw [hb]
        refine .run 0 1 1 _ _ _ ?_ (.terminated _ _)
        simp [WidthsOk, FitsSigned]
      rep := by simp [Representable, exPartsNtfs]
      nonZero := by simp [NonZero]
      inImage := by
        intro e he l hl
        have : exPartsImage.length = 640 := by decide
        rw [this]
        simp only [List.mem_cons, List.not_mem_nil, or_false] at he
        subst he
        injection hl with hl; subst hl; decide
      imgLt := by decide } }

/-- The part in record 1 or 2. -/
def exPart (off number lcn : Nat) : Part :=
  { entry := ⟨0x80, number - 1, number + 2 ^ 48, 5, []⟩, file := exPartsFile off number, pre := [],
    off := 56, len := 72, start := 60, es := [⟨1, some lcn⟩] }

set_option maxRecDepth 20000 in
theorem exPart_stored : (exPart 192 1 7).Stored exPartsNtfs exPartsImage [⟨6, some 1⟩] 5 .data ∧
    (exPart 320 2 9).Stored exPartsNtfs exPartsImage [⟨6, some 1⟩] 5 .data := by
  refine ⟨⟨rfl, rfl, by decide, ⟨192, by decide, by decide, by decide⟩, .nil 56,
      ⟨by decide, by decide, by decide, by decide⟩, by simp [exPart], by decide, by decide, by decide,
      by decide, by decide, by decide, ⟨by decide, ?_, by simp [Representable, exPartsNtfs, exPart],
        by simp [NonZero, exPart], ?_, by decide⟩, by simp [exPart]⟩,
    ⟨rfl, rfl, by decide, ⟨320, by decide, by decide, by decide⟩, .nil 56,
      ⟨by decide, by decide, by decide, by decide⟩, by simp [exPart], by decide, by decide, by decide,
      by decide, by decide, by decide, ⟨by decide, ?_, by simp [Representable, exPartsNtfs, exPart],
        by simp [NonZero, exPart], ?_, by decide⟩, by simp [exPart]⟩⟩
  · have hb : List.take (72 - 60) (List.drop (56 + 60) (exPartsFile 192 1).recordData) =
        [0x11, 1, 7, 0, 0, 0, 0, 0, 0, 0, 0, 0] := by decide
    have : Encodes 0 [⟨1, some 7⟩] [0x11, 1, 7, 0, 0, 0, 0, 0, 0, 0, 0, 0] :=
      .run 0 1 1 _ _ _ (by simp [WidthsOk, FitsSigned]) (.terminated _ _)
    rw [← hb] at this
    exact this
  · intro e he l hl
    have : exPartsImage.length = 640 := by decide
    rw [this]
    simp only [exPart, List.mem_cons, List.not_mem_nil, or_false] at he
    subst he
    injection hl with hl; subst hl; decide
  · have hb : List.take (72 - 60) (List.drop (56 + 60) (exPartsFile 320 2).recordData) =
        [0x11, 1, 9, 0, 0, 0, 0, 0, 0, 0, 0, 0] := by decide
    have : Encodes 0 [⟨1, some 9⟩] [0x11, 1, 9, 0, 0, 0, 0, 0, 0, 0, 0, 0] :=
      .run 0 1 1 _ _ _ (by simp [WidthsOk, FitsSigned]) (.terminated _ _)
    rw [← hb] at this
    exact this
  · intro e he l hl
    have : exPartsImage.length = 640 := by decide
    rw [this]
    simp only [exPart, List.mem_cons, List.not_mem_nil, or_false] at he
    subst he
    injection hl with hl; subst hl; decide

set_option maxRecDepth 20000 in
/-- All hypotheses of `C03_flat_file` can be met: the value split over two records, followed in the
list by an entry of another type. -/
example : ∃ b, ∃ a : Attr, ListEncodes ([exPart 192 1 7, exPart 320 2 9].map Part.entry ++
      [⟨0xA0, 0, 1, 5, []⟩]) b ∧
    OtherValue 5 .data [⟨0xA0, 0, 1, 5, []⟩] ∧
    (AttrList.resident b none).Holds exPartsImage b ∧ a.list = some (.resident b none) ∧
    a.file.ntfs = exPartsNtfs ∧ a.offset + 56 ≤ a.recordData.length ∧
    field a.recordData (a.offset + 8) 1 ≠ 0 ∧ field a.recordData (a.offset + 14) 2 = 5 ∧
    field a.recordData a.offset 4 = AttrType.data.code ∧ field a.recordData (a.offset + 48) 8 = 100 ∧
    (content 64 exPartsImage ([exPart 192 1 7, exPart 320 2 9].flatMap Part.es)).take 100 =
      List.replicate 64 0x77 ++ List.replicate 36 0x99 := by
  have h3 := ListEncodes.cons ⟨0xA0, 0, 1, 5, []⟩ [] [] []
    ⟨by decide, by decide, by decide, by decide, by decide, by decide⟩ (by decide) .nil
  have h2 := ListEncodes.cons (exPart 320 2 9).entry [] _ _
    ⟨by decide, by decide, by decide, by decide, by decide, by decide⟩ (by decide) h3
  have h1 := ListEncodes.cons (exPart 192 1 7).entry [] _ _
    ⟨by decide, by decide, by decide, by decide, by decide, by decide⟩ (by decide) h2
  refine ⟨_, ⟨exPartsFile 192 1, 56, some (.resident _ none)⟩, h1, ?_, rfl, rfl, rfl, ?_⟩
  · rintro e ⟨⟩
    exact .inr ⟨.indexAllocation, rfl, by decide⟩
  · simp only [Attr.recordData]
    decide

set_option maxRecDepth 20000 in
/-- `C03_flat_file` applies to that value, read over a device that answers in small pieces. -/
example : ∃ (a : Attr) (v : ALVal) (d' : Dev), a.value ⟨exPartsImage, 0, [.chunk 1, .chunk 3]⟩ = (.ok (.list v), d') ∧ v.len = 100 ∧
    (v.run d' [.seek (.start 60), .read (List.replicate 8 0)]).1 =
      [⟨.ok 60, []⟩, ⟨.ok 8, [0x77, 0x77, 0x77, 0x77, 0x99, 0x99, 0x99, 0x99]⟩] := by
  have h3 := ListEncodes.cons ⟨0xA0, 0, 1, 5, []⟩ [] [] []
    ⟨by decide, by decide, by decide, by decide, by decide, by decide⟩ (by decide) .nil
  have h2 := ListEncodes.cons (exPart 320 2 9).entry [] _ _
    ⟨by decide, by decide, by decide, by decide, by decide, by decide⟩ (by decide) h3
  have h1 := ListEncodes.cons (exPart 192 1 7).entry [] _ _
    ⟨by decide, by decide, by decide, by decide, by decide, by decide⟩ (by decide) h2
  obtain ⟨v, d', g1, g2, g3, _⟩ := C03_flat_file exPartsStored [exPart 192 1 7, exPart 320 2 9] (by simp)
    (by intro p hp; simp only [List.mem_cons, List.not_mem_nil, or_false] at hp
        rcases hp with rfl | rfl
        · exact exPart_stored.1
        · exact exPart_stored.2)
    [⟨0xA0, 0, 1, 5, []⟩] (by rintro e ⟨⟩; exact .inr ⟨.indexAllocation, rfl, by decide⟩) _ h1 (.resident _ none) rfl
    ⟨exPartsFile 192 1, 56, some (.resident _ none)⟩ rfl rfl (by decide) (by decide) (by decide) (by decide) 100 (by decide)
    ⟨exPartsImage, 0, [.chunk 1, .chunk 3]⟩ (by simp [Dev.NoFail]) rfl [.seek (.start 60), .read (List.replicate 8 0)] (by decide)
  refine ⟨_, v, d', g1, g2, g3.trans ?_⟩
  decide +kernel

end NT
