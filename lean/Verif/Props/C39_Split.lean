import Verif.Props.C03_ListValue
import Verif.Props.C39_DataPosition

namespace NT

open Spec

/-- After the loop of `seek` over a split value the current run is the one with the target byte. -/
theorem ALVal.seekLoop_dataPosition (img : Bytes) (himg : img.length < U64) (fuel : Nat) (v : ALVal) (pos : SeekFrom)
    (left : Nat) (d : Dev) (hd : d.Ok img) (post : List DataRun) (hy : v.Ahead img post)
    (hcur : ∀ r, v.st.run = some r → RunOk img r ∧ (left = 0 → r.streamPosition < r.allocatedSize))
    (hnone : v.st.run = none → left = 0 → post = [])
    (hpost : ∀ r ∈ post, RunOk img r ∧ r.streamPosition = 0)
    (hm : SeekMode pos v.st) (hI : ∀ n, pos = .current n → left < I63)
    (hfuel : post.length < fuel) :
    (ALVal.seekLoop fuel v pos left d).2.1.dataPosition = addrAt (pending v.st post) left := by
  induction fuel generalizing v left post d with
  | zero => omega
  | succ fuel ih =>
    unfold ALVal.seekLoop
    by_cases hleft : left > 0
    case neg =>
      rw [if_neg hleft]
      have : left = 0 := by omega
      subst this
      unfold ALVal.dataPosition StreamState.dataPosition
      cases hr : v.st.run with
      | none => rw [hnone hr rfl]; simp [pending, hr, addrAt]
      | some r =>
        obtain ⟨h1, h4⟩ := hcur r hr
        have h4 := h4 rfl
        simp only [pending, hr, Option.toList, List.cons_append, addrAt]
        rw [if_pos (by omega), DataRun.dataPosition_lt r h1 himg h4]
        rfl
    rw [if_pos hleft]
    by_cases hskip : ∀ r, v.st.run = some r → r.allocatedSize - r.streamPosition ≤ left
    · obtain ⟨k, he, hpend⟩ : ∃ k, v.st.seekDataRun pos left = (.ok false, v.st, left - k) ∧
          addrAt (pending v.st post) left = addrAt post (left - k) := by
        rw [seekDataRun_skip _ _ _ hskip]
        cases hr : v.st.run with
        | none => exact ⟨0, rfl, by simp [pending, hr]⟩
        | some r =>
          refine ⟨_, rfl, ?_⟩
          have := hskip r hr
          simp only [pending, hr, Option.toList, List.cons_append, List.nil_append, addrAt]
          rw [if_neg (by omega)]
      rw [he]
      dsimp only
      rw [hpend]
      have ev : ({ v with st := v.st } : ALVal) = v := rfl
      rw [ev]
      cases post with
      | nil =>
        obtain ⟨v1, d1, e, hd1, hs1, hst1, hy'⟩ := v.advance_done img d hd hy
        rw [e]
        simp [ALVal.dataPosition, StreamState.dataPosition, addrAt]
      | cons x xs =>
        obtain ⟨v1, d1, e, hd1, hs1, hst1, hy'⟩ := v.advance_step img d hd x xs hy
        rw [e]
        dsimp only
        have hx := hpost x (by simp)
        rw [ih v1 (left - k) d1 hd1 xs hy'
            (by
              intro r hr; rw [hst1] at hr; injection hr with hr; subst hr
              exact ⟨hx.1, by have := hx.1.placed.1; have := hx.2; omega⟩)
            (by intro h; rw [hst1] at h; cases h)
            (fun r hr => hpost r (by simp [hr]))
            (by
              cases pos with
              | start n => intro r hr; rw [hst1] at hr; injection hr with hr; subst hr; exact hx.2
              | current n => trivial
              | end_ n => exact hm.elim)
            (by intro n hn; have := hI n hn; omega) (by simp at hfuel; omega)]
        simp [pending, hst1]
    · have hr : ∃ r, v.st.run = some r ∧ left < r.allocatedSize - r.streamPosition := by
        cases hr : v.st.run with
        | none => exact absurd (fun r h => by rw [hr] at h; cases h) hskip
        | some r =>
          refine ⟨r, rfl, ?_⟩
          by_cases hh : r.allocatedSize - r.streamPosition ≤ left
          · exact absurd (fun r' h => by rw [hr] at h; injection h with h; subst h; exact hh) hskip
          · omega
      obtain ⟨r, hr, hlt⟩ := hr
      obtain ⟨h1, h4⟩ := hcur r hr
      rw [seekDataRun_final _ _ _ r hr hlt hm h1.lt hI]
      dsimp only [ALVal.dataPosition, StreamState.dataPosition]
      have hle := h1.le
      have hok' : RunOk img { r with streamPosition := r.streamPosition + left } :=
        ⟨by dsimp only; omega, h1.lt, h1.inside, h1.placed⟩
      rw [DataRun.dataPosition_lt _ hok' himg (by dsimp only; omega)]
      dsimp only
      simp only [pending, hr, Option.toList, List.cons_append, addrAt]
      rw [if_pos hlt]
      cases r.position with
      | none => rfl
      | some p => simp only [Option.map]; congr 1; omega

/-- Where the next byte is after a seek on a split value, in the middle of any history. -/
theorem ALVal.seek_dataPosition (img : Bytes) (himg : img.length < U64) (gs : List (List DataRun))
    (v : ALVal) (hg : v.Good img gs) (s : SeekFrom) (hs : s.InRange) (d : Dev) (hd : d.Ok img)
    (hv : validTarget (seekTarget v.st.streamPosition v.dataSize s))
    (hne : (seekTarget v.st.streamPosition v.dataSize s).toNat ≠ v.st.streamPosition ∧
      ((seekTarget v.st.streamPosition v.dataSize s).toNat < v.dataSize ∨ v.st.streamPosition < v.dataSize)) :
    (v.seek s d).2.1.dataPosition =
      addrAt gs.flatten (seekTarget v.st.streamPosition v.dataSize s).toNat := by
  have hspec := optimizeSeek_spec v.st s v.dataSize hs hg.posLt hg.sizeLt
  obtain ⟨t, ht⟩ : ∃ t, t = seekTarget v.st.streamPosition v.dataSize s := ⟨_, rfl⟩
  unfold ALVal.seek
  rw [← ht] at hspec hv hne ⊢
  rw [if_pos hv] at hspec
  have hfew := hg.few
  have hposLt := hg.posLt
  simp only [validTarget] at hv
  by_cases hc : v.st.streamPosition ≤ t.toNat ∧ t.toNat - v.st.streamPosition < I63
  · rw [if_pos hc] at hspec
    unfold ALVal.len
    rw [hspec]
    dsimp only
    rw [if_pos (by omega)]
    obtain ⟨post, hy, hsub, hlen, hp⟩ := hg.pend
    have hp : Shift img (pending v.st post) gs.flatten v.st.streamPosition := by
      rcases hp with hp | hp
      · exact hp
      · omega
    have hn : (((t.toNat - v.st.streamPosition : Nat) : Int)).toNat = t.toNat - v.st.streamPosition :=
      by omega
    rw [hn]
    have key := ALVal.seekLoop_dataPosition img himg v.runFuel v
        (.current ((t.toNat - v.st.streamPosition : Nat) : Int)) (t.toNat - v.st.streamPosition) d hd post hy
        (fun r hr => ⟨hg.curOk r hr, fun h0 => by omega⟩)
        (fun _ h0 => by omega)
        (fun r hr => hg.allOk r (hsub r hr)) trivial (fun _ _ => hc.2) (by omega)
    obtain ⟨v2, _, d2, h1, _, _, h2, _⟩ :=
      ALVal.seekLoop_ok img v.runFuel v
        (.current ((t.toNat - v.st.streamPosition : Nat) : Int)) (t.toNat - v.st.streamPosition) d post hd hy
        hg.curOk (fun r hr => hg.allOk r (hsub r hr)) trivial (fun _ _ => hc.2) (by omega)
    rw [h1] at key ⊢
    have e1 : v2.st.streamPosition = v.st.streamPosition := by rw [h2]
    dsimp only at key ⊢
    rw [e1, if_pos (by omega)]
    change v2.dataPosition = _
    rw [key, hp.addr]
    congr 1; omega
  · rw [if_neg hc] at hspec
    unfold ALVal.len
    rw [hspec]
    dsimp only
    obtain ⟨v1, post, d1, g1, gd, gs1, g4, g5, g6, g7, g8, g9, g10, g11⟩ := ALVal.rewind_good img gs v hg d hd
    rw [g1]
    dsimp only
    have key := ALVal.seekLoop_dataPosition img himg v.runFuel v1 (.start t.toNat) t.toNat d1 gd post g6
        (by
          intro r hr
          have := (hg.allOk r (g8 r hr)).2
          have := (hg.allOk r (g8 r hr)).1.placed.1
          exact ⟨(hg.allOk r (g8 r hr)).1, by omega⟩)
        (fun hr _ => absurd hr g11) (fun r hr => hg.allOk r (g9 r hr))
        (fun r hr => (hg.allOk r (g8 r hr)).2) (by intro n hn; cases hn) (by omega)
    obtain ⟨v2, _, d2, h1, _⟩ :=
      ALVal.seekLoop_ok img v.runFuel v1 (.start t.toNat) t.toNat d1 post gd g6
        (fun r hr => (hg.allOk r (g8 r hr)).1) (fun r hr => hg.allOk r (g9 r hr))
        (fun r hr => (hg.allOk r (g8 r hr)).2) (by intro n hn; cases hn) (by omega)
    rw [h1] at key ⊢
    dsimp only at key ⊢
    change v2.dataPosition = _
    rw [key]
    unfold pending
    rw [g7]

/-- A history leaves the device in order. -/
theorem ALVal.run_ok (img : Bytes) (gs : List (List DataRun)) (himg : img.length < U64) (ops : List Op)
    (hops : ∀ op ∈ ops, op.InRange) (v : ALVal) (hg : v.Good img gs) (d : Dev) (hd : d.Ok img) :
    (v.run d ops).2.2.Ok img := by
  induction ops generalizing v d with
  | nil => exact hd
  | cons op ops ih =>
    obtain ⟨_, _, h3, h4⟩ := v.step_refines img gs hg himg op (hops op (by simp)) d hd
    exact ih (fun o ho => hops o (by simp [ho])) _ h3 _ h4

/-- C39 for a value that is split over the attributes `parts` of an attribute list: freshly opened, `data_position()` is the
device address of its first byte, and after any history of reads and seeks, a seek that moves the cursor to `t` inside the
value puts `data_position()` at the device address of byte `t`, in whichever part and run that byte is. -/
theorem C39_split {ntfs : Ntfs} {img : Bytes} {mft : NFile} {mftEs : List Extent}
    {mpre : List Nat} {moff mlen mstart : Nat} (hm : MftStored ntfs img mft mftEs mpre moff mlen mstart)
    {inst : Nat} {ty : AttrType} (parts : List Part) (hne : parts ≠ [])
    (hp : ∀ p ∈ parts, p.Stored ntfs img mftEs inst ty) (rest : List LEntry)
    (hr : OtherValue inst ty rest) (b : Bytes)
    (h : ListEncodes (parts.map Part.entry ++ rest) b) (l : AttrList) (hh : l.Holds img b)
    (a : Attr) (hal : a.list = some l) (han : a.file.ntfs = ntfs)
    (h56 : a.offset + 56 ≤ a.recordData.length) (hanr : field a.recordData (a.offset + 8) 1 ≠ 0)
    (hai : field a.recordData (a.offset + 14) 2 = inst) (hat : field a.recordData a.offset 4 = ty.code)
    (size : Nat) (has : field a.recordData (a.offset + 48) 8 = size)
    (d : Dev) (hd : d.NoFail) (hi : d.img = img) (ops : List Op) (hops : ∀ op ∈ ops, op.InRange) (cur : Nat)
    (hcur : cur = (Flat.run ⟨(content ntfs.clusterSize img (parts.flatMap Part.es)).take size, size, 0⟩ ops).2.pos)
    (s : SeekFrom) (hs : s.InRange) (t : Nat) (ht : seekTarget cur size s = t) (hlt : t < size) (htc : t ≠ cur) :
    ∃ v d' v' d'', a.value d = (.ok (.list v), d') ∧
      v.dataPosition = addressOf ntfs.clusterSize (parts.flatMap Part.es) 0 ∧
      (v.run d' ops).2.1.seek s (v.run d' ops).2.2 = (.ok t, v', d'') ∧
      v'.dataPosition = addressOf ntfs.clusterSize (parts.flatMap Part.es) t := by
  obtain ⟨v, d1, hval, hd1, hsz, hpos, gs, hgood, hflat, hin, hsome⟩ :=
    ALVal.value_good_run hm parts hne hp rest hr b h l hh a hal han h56 hanr hai hat size has d hd hi
  have hrun := ALVal.run_ok img gs hm.runs.imgLt ops hops v hgood d1 hd1
  obtain ⟨i1, i2, i3⟩ := ALVal.run_refines img gs hm.runs.imgLt ops hops v hgood d1 hd1
  have hf : v.flat img gs = ⟨(content ntfs.clusterSize img (parts.flatMap Part.es)).take size, size, 0⟩ := by
    unfold ALVal.flat
    rw [hflat, restBytes_runOf, hsz, hpos]
  rw [hf] at i2
  obtain ⟨w, hw0⟩ : ∃ w, w = (v.run d1 ops).2.1 := ⟨_, rfl⟩
  rw [← hw0] at i2 i3
  have hw : w.st.streamPosition = cur := by rw [hcur, ← i2]
  have hws : w.dataSize = size := by
    have := congrArg Flat.len i2
    rw [Flat.run_len'] at this
    exact this
  have hsk := ALVal.seek_good img gs w i3 s hs _ hrun
  have hvt : validTarget (seekTarget cur size s) := by
    have := hgood.sizeLt
    rw [ht]; simp only [validTarget]; omega
  rw [hw, hws, if_pos hvt] at hsk
  obtain ⟨v', d'', g1, _⟩ := hsk
  have ht' : (seekTarget cur size s).toNat = t := by rw [ht]; rfl
  have key := ALVal.seek_dataPosition img hm.runs.imgLt gs w i3 s hs _ hrun (by rw [hw, hws]; exact hvt)
    (by rw [hw, hws, ht']; exact ⟨htc, .inl hlt⟩)
  rw [hw, hws, hflat, addrAt_runOf, g1, ht'] at key
  rw [ht', hw0] at g1
  refine ⟨v, d1, v', d'', hval, ?_, g1, key⟩
  obtain ⟨post, _, _, _, hpd⟩ := hgood.pend
  have hpd : Shift img (pending v.st post) gs.flatten 0 := by
    rcases hpd with hpd | hpd
    · rwa [hpos] at hpd
    · omega
  have hadd := hpd.addr 0
  rw [hflat, addrAt_runOf] at hadd
  rw [← hadd]
  unfold ALVal.dataPosition StreamState.dataPosition
  cases hrn : v.st.run with
  | none => exact absurd hrn hsome
  | some r =>
    obtain ⟨hok, h0⟩ := hgood.allOk r (hin r hrn)
    have := hok.placed.1
    dsimp only
    rw [DataRun.dataPosition_lt r hok hm.runs.imgLt (by omega)]
    simp only [pending, hrn, Option.toList, List.cons_append, addrAt]
    rw [if_pos (by omega)]
    rfl

set_option maxRecDepth 20000 in
/-- The value of C03 (100 bytes in clusters 7 and 9 of 64 bytes): opened, it stands at 448. After a read of 70 bytes and a
seek to byte 10, a seek to the last byte stands at 576 + 35. -/
example : ∃ (a : Attr) (v v' : ALVal) (d1 d2 : Dev), a.value ⟨exPartsImage, 0, [.chunk 1, .chunk 3]⟩ = (.ok (.list v), d1) ∧
    v.dataPosition = some 448 ∧
    (v.run d1 [.read (List.replicate 70 0), .seek (.start 10)]).2.1.seek (.end_ (-1))
      (v.run d1 [.read (List.replicate 70 0), .seek (.start 10)]).2.2 = (.ok 99, v', d2) ∧ v'.dataPosition = some 611 := by
  have h3 := ListEncodes.cons ⟨0xA0, 0, 1, 5, []⟩ [] [] []
    ⟨by decide, by decide, by decide, by decide, by decide, by decide⟩ (by decide) .nil
  have h2 := ListEncodes.cons (exPart 320 2 9).entry [] _ _
    ⟨by decide, by decide, by decide, by decide, by decide, by decide⟩ (by decide) h3
  have h1 := ListEncodes.cons (exPart 192 1 7).entry [] _ _
    ⟨by decide, by decide, by decide, by decide, by decide, by decide⟩ (by decide) h2
  obtain ⟨v, d1, v', d2, g1, g2, g3, g4⟩ := C39_split exPartsStored [exPart 192 1 7, exPart 320 2 9] (by simp)
    (by intro p hp; simp only [List.mem_cons, List.not_mem_nil, or_false] at hp
        rcases hp with rfl | rfl
        · exact exPart_stored.1
        · exact exPart_stored.2)
    [⟨0xA0, 0, 1, 5, []⟩] (by rintro e ⟨⟩; exact .inr ⟨.indexAllocation, rfl, by decide⟩) _ h1 (.resident _ none) rfl
    ⟨exPartsFile 192 1, 56, some (.resident _ none)⟩ rfl rfl
    (by decide) (by decide) (by decide) (by decide) 100 (by decide)
    ⟨exPartsImage, 0, [.chunk 1, .chunk 3]⟩ (by simp [Dev.NoFail]) rfl
    [.read (List.replicate 70 0), .seek (.start 10)] (by decide) 10 (by decide +kernel) (.end_ (-1)) ⟨by decide, by decide⟩ 99
    (by decide) (by decide) (by decide)
  exact ⟨_, v, v', d1, d2, g1, g2, g3, g4⟩

end NT
