import Verif.Props.C05_List
import Verif.Lemmas.Retry

/-! Trying again on a value that is split over an attribute list, after the device has failed. -/

namespace NT

open Spec

/-! ### What no operation changes -/

theorem ALVal.nextConnected_same (v : ALVal) (d : Dev) : v.Same (ALVal.nextConnected (v, d)).2.1 := by
  unfold ALVal.nextConnected
  dsimp only
  repeat' first | exact ⟨rfl, rfl, rfl, rfl, rfl⟩ | split | dsimp only

theorem ALVal.nextAttribute_same (v : ALVal) (d : Dev) : v.Same (ALVal.nextAttribute (v, d)).2.1 := by
  unfold ALVal.nextAttribute
  have h := ALVal.nextConnected_same v d
  rw [StM.bind_apply]
  generalize ALVal.nextConnected (v, d) = q at h ⊢
  obtain ⟨r, v', d'⟩ := q
  dsimp only at h
  cases r with
  | ok o =>
    cases o with
    | none => exact h
    | some e =>
      dsimp only
      split <;> exact h.trans ⟨rfl, rfl, rfl, rfl, rfl⟩
  | err e => exact h
  | panic p => exact h
  | diverge => exact h

theorem ALVal.nextDataRun_same (v : ALVal) : v.Same v.nextDataRun.2 := by
  unfold ALVal.nextDataRun
  repeat' first | exact ⟨rfl, rfl, rfl, rfl, rfl⟩ | split | dsimp only

theorem ALVal.advance_same (v : ALVal) (d : Dev) : v.Same (v.advance d).2.1 := by
  unfold ALVal.advance
  have h := v.nextDataRun_same
  generalize v.nextDataRun = q at h
  obtain ⟨r, w⟩ := q
  cases r with
  | ok b =>
    cases b with
    | true => exact h
    | false => exact h.trans (ALVal.nextAttribute_same w d)
  | err e => exact h
  | panic p => exact h
  | diverge => exact h

theorem ALVal.readLoop_same (fuel : Nat) (v : ALVal) (buf : Bytes) (br : Nat) (d : Dev) :
    v.Same (ALVal.readLoop fuel v buf br d).2.1 := by
  induction fuel generalizing v buf br d with
  | zero => exact .refl v
  | succ fuel ih =>
    unfold ALVal.readLoop
    split
    case isFalse => exact .refl v
    have hst : ∀ st, v.Same { v with st := st } := fun st => ⟨rfl, rfl, rfl, rfl, rfl⟩
    generalize v.st.readDataRun buf br d = q
    obtain ⟨r, st', buf', br', d'⟩ := q
    cases r with
    | ok b =>
      cases b with
      | true => exact (hst st').trans (ih _ _ _ _)
      | false =>
        dsimp only
        have h := (hst st').trans (ALVal.advance_same { v with st := st' } d')
        generalize ALVal.advance { v with st := st' } d' = q at h ⊢
        obtain ⟨r, v', d''⟩ := q
        dsimp only at h
        cases r with
        | ok b =>
          cases b with
          | true => exact h.trans (ih _ _ _ _)
          | false => exact h
        | err e => exact h
        | panic e => exact h
        | diverge => exact h
    | err e => exact hst st'
    | panic e => exact hst st'
    | diverge => exact hst st'

theorem ALVal.seekLoop_same (fuel : Nat) (v : ALVal) (pos : SeekFrom) (left : Nat) (d : Dev) :
    v.Same (ALVal.seekLoop fuel v pos left d).2.1 ∧ v.Kept (ALVal.seekLoop fuel v pos left d).2.1 := by
  induction fuel generalizing v left d with
  | zero => exact ⟨.refl v, .refl v⟩
  | succ fuel ih =>
    unfold ALVal.seekLoop
    split
    case isFalse => exact ⟨.refl v, .refl v⟩
    have hk : v.Same { v with st := (v.st.seekDataRun pos left).2.1 } ∧
        v.Kept { v with st := (v.st.seekDataRun pos left).2.1 } := by
      refine ⟨⟨rfl, rfl, rfl, rfl, rfl⟩, ?_⟩
      unfold StreamState.seekDataRun
      repeat' first | exact ⟨rfl, rfl, rfl⟩ | split | dsimp only
    generalize v.st.seekDataRun pos left = q at hk
    obtain ⟨r, st', left'⟩ := q
    dsimp only at hk
    cases r with
    | ok b =>
      cases b with
      | true => exact hk
      | false =>
        dsimp only
        have h1 := hk.1.trans (ALVal.advance_same { v with st := st' } d)
        have h2 := hk.2.trans (ALVal.advance_kept { v with st := st' } d)
        generalize ALVal.advance { v with st := st' } d = q at h1 h2 ⊢
        obtain ⟨r, v', d''⟩ := q
        dsimp only at h1 h2
        cases r with
        | ok b =>
          cases b with
          | true => exact ⟨h1.trans (ih _ _ _).1, h2.trans (ih _ _ _).2⟩
          | false => exact ⟨h1.trans ⟨rfl, rfl, rfl, rfl, rfl⟩, h2.trans ⟨rfl, rfl, rfl⟩⟩
        | err e => exact ⟨h1, h2⟩
        | panic e => exact ⟨h1, h2⟩
        | diverge => exact ⟨h1, h2⟩
    | err e => exact hk
    | panic e => exact hk
    | diverge => exact hk

theorem ALVal.rewind_same (v : ALVal) (d : Dev) :
    v.Same (v.rewind d).2.1 ∧ (v.rewind d).2.1.st.streamPosition = 0 ∧
      (v.rewind d).2.1.st.dataSize = v.dataSize := by
  unfold ALVal.rewind
  have h1 := ALVal.nextAttribute_same { v with connected := some v.initial, st := StreamState.new v.len } d
  have h2 := ALVal.nextAttribute_kept { v with connected := some v.initial, st := StreamState.new v.len } d
  generalize ALVal.nextAttribute ({ v with connected := some v.initial, st := StreamState.new v.len }, d) = q
    at h1 h2
  obtain ⟨r, v', d'⟩ := q
  dsimp only at h1 h2
  have h : v.Same v' ∧ v'.st.streamPosition = 0 ∧ v'.st.dataSize = v.dataSize :=
    ⟨⟨h1.ntfs, h1.initial, h1.inst, h1.ty, h1.dataSize⟩, h2.position, h2.size⟩
  cases r <;> exact h

/-- What holds for a value in every state that operations lead to, whatever the device does. -/
structure ALVal.Steady (v w : ALVal) : Prop where
  same : v.Same w
  size : w.st.dataSize = v.dataSize
  pos : w.st.streamPosition < U64

theorem ALVal.step_steady {v w : ALVal} (h : v.Steady w) (hs : v.dataSize < U64) (op : Op) (hop : op.InRange)
    (d : Dev) : v.Steady (w.step d op).2.1 := by
  have hd := h.same.dataSize
  cases op with
  | read buf =>
    obtain ⟨b, _, _, h3, h4, _, h6, _⟩ := ALVal.readLoop_contract (buf.length + w.runFuel + w.leftFuel) w buf 0 d
      (Nat.zero_le _)
    have h0 := ALVal.readLoop_same (buf.length + w.runFuel + w.leftFuel) w buf 0 d
    have hsz := h.size
    have hps := h.pos
    exact ⟨h.same.trans h0, h4.trans h.size, by
      show (ALVal.readLoop (buf.length + w.runFuel + w.leftFuel) w buf 0 d).2.1.st.streamPosition < U64
      rw [h3]; omega⟩
  | seek s =>
    have hspec := optimizeSeek_spec w.st s w.dataSize hop h.pos (by omega)
    show v.Steady (w.seek s d).2.1
    unfold ALVal.seek ALVal.len
    rw [hspec]
    by_cases hv : validTarget (seekTarget w.st.streamPosition w.dataSize s)
    case neg => rw [if_neg hv]; exact h
    rw [if_pos hv]
    by_cases hc : w.st.streamPosition ≤ (seekTarget w.st.streamPosition w.dataSize s).toNat ∧
        (seekTarget w.st.streamPosition w.dataSize s).toNat - w.st.streamPosition < I63
    · rw [if_pos hc]
      dsimp only
      rw [if_pos (by omega)]
      have hk := ALVal.seekLoop_same w.runFuel w
        (.current ((seekTarget w.st.streamPosition w.dataSize s).toNat - w.st.streamPosition : Nat))
        ((seekTarget w.st.streamPosition w.dataSize s).toNat - w.st.streamPosition : Nat) d
      simp only [Int.toNat_natCast] at hk ⊢
      generalize ALVal.seekLoop w.runFuel w _ _ d = q at hk ⊢
      obtain ⟨r, v2, d2⟩ := q
      dsimp only at hk
      have h2 : v.Steady v2 := ⟨h.same.trans hk.1, hk.2.size.trans h.size, by rw [hk.2.position]; exact h.pos⟩
      cases r with
      | ok u =>
        dsimp only
        split
        · next hlt =>
          exact ⟨h2.same.trans ⟨rfl, rfl, rfl, rfl, rfl⟩, h2.size, hlt⟩
        · exact h2
      | err e => exact h2
      | panic e => exact h2
      | diverge => exact h2
    · rw [if_neg hc]
      dsimp only
      have hr := w.rewind_same d
      generalize w.rewind d = q at hr ⊢
      obtain ⟨r, v1, d1⟩ := q
      dsimp only at hr
      have h1 : v.Steady v1 := ⟨h.same.trans hr.1, hr.2.2.trans hd, by rw [hr.2.1]; decide⟩
      cases r with
      | ok u =>
        dsimp only
        have hk := ALVal.seekLoop_same w.runFuel v1 (.start (seekTarget w.st.streamPosition w.dataSize s).toNat)
          (seekTarget w.st.streamPosition w.dataSize s).toNat d1
        generalize ALVal.seekLoop w.runFuel v1 _ _ d1 = q at hk ⊢
        obtain ⟨r, v2, d2⟩ := q
        dsimp only at hk
        have h2 : v.Steady v2 := ⟨h1.same.trans hk.1, hk.2.size.trans h1.size,
          by rw [hk.2.position]; exact h1.pos⟩
        cases r with
        | ok u =>
          refine ⟨h2.same.trans ⟨rfl, rfl, rfl, rfl, rfl⟩, h2.size, ?_⟩
          simp only [validTarget] at hv
          show (seekTarget w.st.streamPosition w.dataSize s).toNat < U64
          omega
        | err e => exact h2
        | panic e => exact h2
        | diverge => exact h2
      | err e => exact h1
      | panic e => exact h1
      | diverge => exact h1

theorem ALVal.run_steady {v : ALVal} (hs : v.dataSize < U64) (ops : List Op) (hops : ∀ op ∈ ops, op.InRange)
    (w : ALVal) (h : v.Steady w) (d : Dev) : v.Steady (w.run d ops).2.1 := by
  induction ops generalizing w d with
  | nil => exact h
  | cons op ops ih =>
    exact ih (fun o ho => hops o (List.mem_cons_of_mem _ ho)) _
      (ALVal.step_steady h hs op (hops op List.mem_cons_self) d) _

/-- Seeking back to `t` repairs a value, in whatever state failures have left it. -/
theorem ALVal.seek_back {img : Bytes} {gs : List (List DataRun)} {v w : ALVal} (hg : v.Good img gs) (h : v.Steady w)
    {s : SeekFrom} (hs : s.InRange) (hv : validTarget (seekTarget w.st.streamPosition v.dataSize s))
    (hb : seekTarget w.st.streamPosition v.dataSize s < w.st.streamPosition) {d : Dev} (hd : d.Ok img) :
    ∃ w' d', w.seek s d = (.ok (seekTarget w.st.streamPosition v.dataSize s).toNat, w', d') ∧ d'.Ok img ∧
      w'.Good img gs ∧ w'.dataSize = v.dataSize ∧
      w'.st.streamPosition = (seekTarget w.st.streamPosition v.dataSize s).toNat := by
  have hds := h.same.dataSize
  have hspec := optimizeSeek_spec w.st s w.dataSize hs h.pos (by rw [hds]; exact hg.sizeLt)
  rw [hds] at hspec
  rw [if_pos hv, if_neg (by omega)] at hspec
  unfold ALVal.seek ALVal.len
  rw [hds, hspec]
  dsimp only
  have hfew := hg.few
  have hfresh : Conn img w.ntfs w.inst w.ty gs w.initial := by
    rw [h.same.ntfs, h.same.inst, h.same.ty, h.same.initial]; exact hg.fresh
  obtain ⟨v1, post, d1, k1, kd, k3, k4, k5, k6, k7, k8, k9, _⟩ := ALVal.start_good img gs
    { w with connected := some w.initial, st := StreamState.new w.len } hfresh hg.some_ rfl d hd
  have kr : w.rewind d = (.ok (), v1, d1) := by simp only [rewind, k1]
  have kk := w.rewind_same d
  rw [kr] at kk
  rw [kr]
  dsimp only at kk ⊢
  have hrf : w.runFuel = v.runFuel := ALVal.runFuel_same h.same
  obtain ⟨v2, post', d2, h1, hd2, hs2, h2, h3, h4, h5, h6, h7⟩ :=
    ALVal.seekLoop_ok img w.runFuel v1 (.start (seekTarget w.st.streamPosition v.dataSize s).toNat)
      (seekTarget w.st.streamPosition v.dataSize s).toNat d1 post kd k5
      (fun r hr => (hg.allOk r (k7 r hr)).1) (fun r hr => hg.allOk r (k8 r hr))
      (fun r hr => (hg.allOk r (k7 r hr)).2) (by intro n hn; cases hn) (by omega)
  rw [h1]
  dsimp only
  have hs' := (h.same.trans kk.1).trans hs2
  have e2 : v2.st.dataSize = v.dataSize := by rw [h2]; exact kk.2.2.trans hds
  simp only [validTarget] at hv
  refine ⟨_, d2, rfl, hd2, ⟨?_, hg.some_, hg.allOk, ?_, ?_, ?_, ?_, h4, post', h3, ?_, by omega, ?_⟩,
    hs'.dataSize, rfl⟩
  · dsimp only; rw [hs'.ntfs, hs'.inst, hs'.ty, hs'.initial]; exact hg.fresh
  · have : ALVal.runFuel { v2 with st :=
        { v2.st with streamPosition := (seekTarget w.st.streamPosition v.dataSize s).toNat } } = v.runFuel :=
      ALVal.runFuel_same ⟨hs'.ntfs, hs'.initial, hs'.inst, hs'.ty, hs'.dataSize⟩
    rw [this]; exact hfew
  · dsimp only; rw [e2, hs'.dataSize]
  · dsimp only; rw [hs'.dataSize]; exact hg.sizeLt
  · dsimp only; omega
  · intro r hr; exact k8 r (h5 r hr)
  · left
    dsimp only
    show Shift img (pending v2.st post') _ _
    unfold pending at h7
    rwa [k6] at h7

/-- **C68**, what holds for a value that is split over the attributes `parts` of an attribute list: whatever
history `before` of reads and seeks was run on it, over whatever failing device, a seek to a target before the
current position repairs it, once the device works again. The seek gives its target, and every history
`after` behaves like the in-memory file from there on. Missing: reading on, or seeking forward, after a failure
(`C68_value_negation`). -/
theorem C68_rewind_partial {ntfs : Ntfs} {img : Bytes} {mft : NFile} {mftEs : List Extent}
    {mpre : List Nat} {moff mlen mstart : Nat} (hm : MftStored ntfs img mft mftEs mpre moff mlen mstart)
    {inst : Nat} {ty : AttrType} (parts : List Part) (hne : parts ≠ [])
    (hp : ∀ p ∈ parts, p.Stored ntfs img mftEs inst ty) (rest : List LEntry)
    (hr : OtherValue inst ty rest) (b : Bytes)
    (h : ListEncodes (parts.map Part.entry ++ rest) b) (l : AttrList) (hh : l.Holds img b)
    (a : Attr) (hal : a.list = some l) (han : a.file.ntfs = ntfs)
    (h56 : a.offset + 56 ≤ a.recordData.length) (hanr : field a.recordData (a.offset + 8) 1 ≠ 0)
    (hai : field a.recordData (a.offset + 14) 2 = inst) (hat : field a.recordData a.offset 4 = ty.code)
    (size : Nat) (has : field a.recordData (a.offset + 48) 8 = size)
    (d : Dev) (hd : d.NoFail) (hi : d.img = img)
    (before after : List Op) (hb : ∀ op ∈ before, op.InRange) (ha : ∀ op ∈ after, op.InRange) :
    ∃ v d', a.value d = (.ok (.list v), d') ∧
      ∀ (failing healed : Dev) (s : SeekFrom), healed.Ok img → s.InRange →
        0 ≤ seekTarget (v.run failing before).2.1.streamPosition size s →
        seekTarget (v.run failing before).2.1.streamPosition size s < (v.run failing before).2.1.streamPosition →
        ((v.run failing before).2.1.run healed (.seek s :: after)).1 =
          ⟨.ok (seekTarget (v.run failing before).2.1.streamPosition size s).toNat, []⟩ :: (Flat.run
            { content := (content ntfs.clusterSize img (parts.flatMap Part.es)).take size
              len := size
              pos := (seekTarget (v.run failing before).2.1.streamPosition size s).toNat } after).1 := by
  obtain ⟨v1, d1, hval, hd1, hsz, hpos, gs, hgood, hflat⟩ :=
    ALVal.value_good hm parts hne hp rest hr b h l hh a hal han h56 hanr hai hat size has d hd hi
  refine ⟨v1, d1, hval, fun failing healed s hk hs h0 hlt => ?_⟩
  have hst : v1.Steady v1 := ⟨.refl v1, hgood.size, hgood.posLt⟩
  have hw := ALVal.run_steady hgood.sizeLt before hb v1 hst failing
  generalize (v1.run failing before).2.1 = w at hw h0 hlt ⊢
  have hwp := hw.pos
  rw [← hsz] at h0 hlt
  unfold ALVal.streamPosition at h0 hlt ⊢
  obtain ⟨w', d', e1, e2, e3, e4, e5⟩ := ALVal.seek_back hgood hw hs (s := s)
    (by simp only [validTarget]; exact ⟨h0, by omega⟩) hlt hk
  obtain ⟨i1, _, _⟩ := ALVal.run_refines img gs hm.runs.imgLt after ha w' e3 d' e2
  simp only [ALVal.run, ALVal.step, e1]
  rw [i1, hsz]
  unfold ALVal.flat
  rw [hflat, restBytes_runOf, e4, hsz, e5, hsz]

/-! ### The hypotheses can be met, and what goes wrong without the seek -/

/-- The list of the two parts of `exPartsImage`, followed by an entry of another type. -/
def exRetryList : Bytes :=
  [0x80, 0, 0, 0, 26, 0, 0, 26,  0, 0, 0, 0, 0, 0, 0, 0,  1, 0, 0, 0, 0, 0, 1, 0,  5, 0] ++
  [0x80, 0, 0, 0, 26, 0, 0, 26,  1, 0, 0, 0, 0, 0, 0, 0,  2, 0, 0, 0, 0, 0, 1, 0,  5, 0] ++
  [0xA0, 0, 0, 0, 26, 0, 0, 26,  0, 0, 0, 0, 0, 0, 0, 0,  1, 0, 0, 0, 0, 0, 0, 0,  5, 0]

/-- The attribute whose value of 100 bytes has the two parts. -/
def exRetryAttr : Attr := ⟨exPartsFile 192 1, 56, some (.resident exRetryList none)⟩

set_option maxRecDepth 20000 in
theorem exRetry_encodes : ListEncodes ([exPart 192 1 7, exPart 320 2 9].map Part.entry ++
    [⟨0xA0, 0, 1, 5, []⟩]) exRetryList := by
  have h3 := ListEncodes.cons ⟨0xA0, 0, 1, 5, []⟩ [] [] []
    ⟨by decide, by decide, by decide, by decide, by decide, by decide⟩ (by decide) .nil
  have h2 := ListEncodes.cons (exPart 320 2 9).entry [] _ _
    ⟨by decide, by decide, by decide, by decide, by decide, by decide⟩ (by decide) h3
  have h1 := ListEncodes.cons (exPart 192 1 7).entry [] _ _
    ⟨by decide, by decide, by decide, by decide, by decide, by decide⟩ (by decide) h2
  have e : exRetryList = (exPart 192 1 7).entry.encode [] ++ ((exPart 320 2 9).entry.encode [] ++
    (LEntry.encode ⟨0xA0, 0, 1, 5, []⟩ [] ++ [])) := by decide +kernel
  rw [e]
  exact h1

set_option maxRecDepth 20000 in
/-- The hypotheses of `C68_rewind_partial` can be met, also with a history that fails: reading the two parts
one after the other over a device that fails when the record of the second part is loaded. -/
theorem exRetry_repaired : ∃ v d', exRetryAttr.value ⟨exPartsImage, 0, []⟩ = (.ok (.list v), d') ∧
    ∀ (failing healed : Dev) (s : SeekFrom), healed.Ok exPartsImage → s.InRange →
      0 ≤ seekTarget (v.run failing [.read (List.replicate 64 0), .read (List.replicate 36 0)]).2.1.streamPosition
        100 s →
      seekTarget (v.run failing [.read (List.replicate 64 0), .read (List.replicate 36 0)]).2.1.streamPosition
        100 s < (v.run failing [.read (List.replicate 64 0), .read (List.replicate 36 0)]).2.1.streamPosition →
      ((v.run failing [.read (List.replicate 64 0), .read (List.replicate 36 0)]).2.1.run healed
        [.seek s, .read (List.replicate 200 0)]).1 =
        ⟨.ok (seekTarget (v.run failing
          [.read (List.replicate 64 0), .read (List.replicate 36 0)]).2.1.streamPosition 100 s).toNat, []⟩ ::
        (Flat.run
          { content := List.replicate 64 0x77 ++ List.replicate 36 0x99
            len := 100
            pos := (seekTarget (v.run failing [.read (List.replicate 64 0),
              .read (List.replicate 36 0)]).2.1.streamPosition 100 s).toNat }
          [.read (List.replicate 200 0)]).1 := by
  have hc : (content 64 exPartsImage ([exPart 192 1 7, exPart 320 2 9].flatMap Part.es)).take 100 =
      List.replicate 64 0x77 ++ List.replicate 36 0x99 := by decide +kernel
  have h := C68_rewind_partial exPartsStored [exPart 192 1 7, exPart 320 2 9] (by simp)
    (by
      intro p hp
      simp only [List.mem_cons, List.not_mem_nil, or_false] at hp
      rcases hp with rfl | rfl
      · exact exPart_stored.1
      · exact exPart_stored.2)
    [⟨0xA0, 0, 1, 5, []⟩] (by
      rintro e ⟨⟩
      exact .inr ⟨.indexAllocation, rfl, by decide⟩) exRetryList exRetry_encodes (.resident exRetryList none) rfl
    exRetryAttr rfl rfl (by decide +kernel) (by decide +kernel) (by decide +kernel) (by decide +kernel) 100
    (by decide +kernel) ⟨exPartsImage, 0, []⟩ (fun _ hr => by cases hr) rfl
    [.read (List.replicate 64 0), .read (List.replicate 36 0)] [.read (List.replicate 200 0)]
    (by
      intro op hop
      simp only [List.mem_cons, List.not_mem_nil, or_false] at hop
      rcases hop with rfl | rfl <;> trivial)
    (by
      intro op hop
      simp only [List.mem_cons, List.not_mem_nil, or_false] at hop
      subst hop
      trivial)
  rw [show exPartsNtfs.clusterSize = 64 from rfl, hc] at h
  exact h

/-- What the operations `ops` show on the value of the example, over a device that fails once, at its
call `k`. -/
def exRetryRun (k : Nat) (ops : List Op) : List (Res Nat × Option UInt8) :=
  match exRetryAttr.value ⟨exPartsImage, 0, List.replicate k (.chunk 1000) ++ [.fail (.other 5)]⟩ with
  | (.ok (.list v), d') => (v.run d' ops).1.map fun o => (o.result, o.buf.head?)
  | _ => []

/-- **C68**, why the claim fails for values that are split over an attribute list. The value has 100 bytes, 64 in
the first part and 36 in the second.
First: a read at position 64 fails because the device fails while the record of the second part is loaded.
The read again succeeds and gives no bytes, as if the value ended there.
Second: a seek to the start fails. The seek again succeeds, and the read at position 0 gives the bytes
of the second part. -/
theorem C68_value_negation :
    exRetryRun 6 [.read (List.replicate 64 0), .read (List.replicate 36 0), .read (List.replicate 36 0)] =
      [(.ok 64, some 0x77), (.err (.io (.other 5)), some 0), (.ok 0, some 0)] ∧
    exRetryRun 20 [.read (List.replicate 64 0), .read (List.replicate 36 0), .read (List.replicate 36 0)] =
      [(.ok 64, some 0x77), (.ok 36, some 0x99), (.ok 0, some 0)] ∧
    exRetryRun 12 [.read (List.replicate 100 0), .seek (.start 0), .seek (.start 0), .read (List.replicate 64 0)] =
      [(.ok 100, some 0x77), (.err (.io (.other 5)), none), (.ok 0, none), (.ok 64, some 0x99)] := by
  refine ⟨?_, ?_, ?_⟩ <;> decide +kernel

end NT
