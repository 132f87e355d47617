import Verif.Props.C87_Bits32
import Verif.Props.C03_ListValue

/-! C87 for values that are split over several file records. -/

namespace NT

open Spec

/-- The loop of `read`: for runs shorter than 4 GiB, on a 32-bit target. -/
theorem ALVal.readLoop32_ok (img : Bytes) (fuel : Nat) (v : ALVal) (buf : Bytes) (br : Nat) (d : Dev)
    (post : List DataRun) (hd : d.Ok img) (himg : img.length < U64)
    (hy : v.Ahead img post) (hcur : ∀ r, v.st.run = some r → RunOk img r ∧ r.allocatedSize < U32)
    (hpost : ∀ r ∈ post, RunOk img r ∧ r.allocatedSize < U32) (hbr : br ≤ buf.length)
    (hfuel : buf.length - br + post.length < fuel) :
    ∃ got v' post' d',
      got = (restBytes img (pending v.st post)).take (min (buf.length - br) v.st.seen) ∧
      ALVal.readLoop32 fuel v buf br d = (.ok (br + got.length), v', overwrite buf br got, d') ∧
      d'.Ok img ∧ v.Same v' ∧
      v'.st = { v.st with run := v'.st.run, streamPosition := v.st.streamPosition + got.length } ∧
      v'.Ahead img post' ∧ (∀ r, v'.st.run = some r → RunOk img r ∧ r.allocatedSize < U32) ∧
      (∀ r ∈ post', r ∈ post) ∧ post'.length ≤ post.length ∧
      (Shift img (pending v'.st post') (pending v.st post) got.length ∨ v'.st.seen = 0) := by
  induction fuel generalizing v buf br d post with
  | zero => omega
  | succ fuel ih =>
    unfold ALVal.readLoop32
    by_cases hlt : br < buf.length
    case neg =>
      rw [if_neg hlt]
      have : min (buf.length - br) v.st.seen = 0 := by omega
      refine ⟨[], v, post, d, by rw [this, List.take_zero], ?_, hd, .refl _, rfl, hy, hcur,
        fun _ h => h, Nat.le_refl _, .inl (Shift.refl _ _)⟩
      rw [overwrite_nil]; rfl
    rw [if_pos hlt]
    by_cases hskip : ∀ r, v.st.run = some r → r.allocatedSize ≤ r.streamPosition ∨ v.st.seen = 0
    · obtain ⟨d0, e0, i0, n0⟩ := readDataRun32_skip v.st buf br d hd.2 (by rw [hd.1]; exact himg)
        (fun r hr => by rw [hd.1]; exact (hcur r hr).1) hskip
      have hd0 : d0.Ok img := ⟨i0.trans hd.1, n0⟩
      rw [e0]
      dsimp only
      -- the current run contributes nothing
      have hpend : ∀ k, (restBytes img (pending v.st post)).take (min k v.st.seen) =
          (restBytes img post).take (min k v.st.seen) := by
        intro k
        cases hr : v.st.run with
        | none => simp [pending, hr]
        | some r =>
          rcases hskip r hr with h | h
          · simp [pending, hr, restBytes_cons, runBytes_end _ _ h]
          · rw [h, Nat.min_zero, List.take_zero, List.take_zero]
      cases post with
      | nil =>
        obtain ⟨v1, d1, e, hd1, hs1, hst1, hy'⟩ := v.advance_done img d0 hd0 hy
        have ev : ({ v with st := v.st } : ALVal) = v := rfl
        rw [ev, e]
        dsimp only
        refine ⟨[], v1, [], d1, ?_, ?_, hd1, hs1, by rw [hst1]; rfl, hy', by rw [hst1]; exact hcur,
          fun _ h => h, Nat.le_refl _, .inl (by rw [hst1]; exact Shift.refl _ _)⟩
        · rw [hpend]; simp
        · rw [overwrite_nil]; rfl
      | cons x xs =>
        obtain ⟨v1, d1, e, hd1, hs1, hst1, hy'⟩ := v.advance_step img d0 hd0 x xs hy
        have ev : ({ v with st := v.st } : ALVal) = v := rfl
        rw [ev, e]
        dsimp only
        obtain ⟨got, v', post', d', h1, h2, h3, h4, h5, h6, h7, h8, h9, h10⟩ :=
          ih v1 buf br d1 xs hd1 hy'
            (by
              intro r hr; rw [hst1] at hr; injection hr with hr; subst hr
              exact hpost _ (by simp))
            (fun r hr => hpost r (by simp [hr])) hbr (by simp at hfuel; omega)
        have hp : restBytes img (pending v1.st xs) = restBytes img (x :: xs) := by
          simp [pending, hst1]
        have hseen : v1.st.seen = v.st.seen := by rw [hst1]; rfl
        rw [hp, hseen] at h1
        refine ⟨got, v', post', d', ?_, h2, h3, hs1.trans h4, ?_, h6, h7, ?_, ?_, ?_⟩
        · rw [hpend, h1]
        · rw [h5, hst1]
        · intro r hr; simp [h8 r hr]
        · simp; omega
        · rcases h10 with h | h
          · cases hr : v.st.run with
            | none => left; simpa [pending, hr, hst1] using h
            | some r =>
              rcases hskip r hr with hh | hh
              · left
                have hq : pending v1.st xs = x :: xs := by simp [pending, hst1]
                rw [hq] at h
                have := h.trans (Shift.skipDone (img := img) (x :: xs) hh)
                simpa [pending, hr] using this
              · right
                rw [hh, Nat.min_zero, List.take_zero] at h1
                subst h1
                rw [h5, hst1]
                exact hh
          · exact .inr h
    · -- the current run is read
      have hr : ∃ r, v.st.run = some r ∧ r.streamPosition < r.allocatedSize ∧ 0 < v.st.seen := by
        cases hr : v.st.run with
        | none => exact absurd (fun r h => by rw [hr] at h; cases h) hskip
        | some r =>
          refine ⟨r, rfl, ?_⟩
          by_cases hh : r.allocatedSize ≤ r.streamPosition ∨ v.st.seen = 0
          · exact absurd (fun r' h => by rw [hr] at h; injection h with h; subst h; exact hh) hskip
          · omega
      obtain ⟨r, hr, hlt2, hsz⟩ := hr
      obtain ⟨hok, hnar⟩ := hcur r hr
      have hdi := hd.1
      obtain ⟨n, d1, e, h1, h2, h3, h4, h5, h6⟩ :=
        readDataRun32_read v.st buf br d r hd.2 (by rw [hdi]; exact himg) hr (by rw [hdi]; exact hok) hnar
          hlt2 hsz hlt
      rw [hdi] at e h5
      rw [e]
      dsimp only
      have hbl : ((runBytes img r).take n).length = n := by
        rw [List.length_take, runBytes_length hok]; omega
      have hol : (overwrite buf br ((runBytes img r).take n)).length = buf.length :=
        overwrite_length (by omega)
      obtain ⟨got, v', post', d', g1, g2, g3, g4, g5, g6, g7, g8, g9, g10⟩ :=
        ih { v with st := { v.st with
              run := some { r with streamPosition := r.streamPosition + n }
              streamPosition := v.st.streamPosition + n } }
          (overwrite buf br ((runBytes img r).take n)) (br + n) d1 post ⟨h5, h6⟩ hy
          (by
            intro r' hr'; injection hr' with hr'; subst hr'
            exact ⟨⟨by have := hok.le; dsimp only; omega, hok.lt, hok.inside, hok.placed⟩, hnar⟩)
          hpost (by rw [hol]; exact h2) (by rw [hol]; omega)
      have hseen : StreamState.seen { v.st with
              run := some { r with streamPosition := r.streamPosition + n }
              streamPosition := v.st.streamPosition + n } = v.st.seen - n := by
        unfold StreamState.seen at *
        dsimp only
        omega
      dsimp only at g1 g2 g5 g10
      rw [hseen] at g1
      have h4' : n ≤ v.st.seen := h4
      have hp : restBytes img (pending v.st post) = runBytes img r ++ restBytes img post := by
        simp [pending, hr, restBytes_cons]
      have hp' : restBytes img (pending { v.st with
              run := some { r with streamPosition := r.streamPosition + n }
              streamPosition := v.st.streamPosition + n } post) =
          (restBytes img (pending v.st post)).drop n := by
        rw [hp, List.drop_append_of_le_length (by rw [runBytes_length hok]; omega)]
        simp [pending, restBytes_cons, runBytes_advance]
      rw [hp', hol] at g1
      have ht : (runBytes img r).take n = (restBytes img (pending v.st post)).take n := by
        rw [hp, List.take_append_of_le_length (by rw [runBytes_length hok]; omega)]
      refine ⟨(runBytes img r).take n ++ got, v', post', d', ?_, ?_, g3,
        ⟨g4.ntfs, g4.initial, g4.inst, g4.ty, g4.dataSize⟩, ?_, g6, g7, g8, g9, ?_⟩
      · rw [ht, g1, ← List.take_add]
        congr 1; omega
      · rw [g2, List.length_append, hbl]
        have := overwrite_append buf ((runBytes img r).take n) got br (by omega)
        rw [hbl] at this
        rw [this]
        congr 2
        omega
      · rw [g5, List.length_append, hbl]
        simp only [Nat.add_assoc]
      · rw [List.length_append, hbl]
        rcases g10 with h | h
        · left
          have := h.trans (Shift.advance (img := img) post n hok h3)
          simpa [pending, hr] using this
        · exact .inr h

/-- A split value with the runs `all`, all shorter than 4 GiB, on a 32-bit target: its runs are where the position is, or it
has taken the value for finished. -/
structure ALVal.Good32 (img : Bytes) (all : List DataRun) (v : ALVal) : Prop where
  allOk : ∀ r ∈ all, RunOk img r ∧ r.allocatedSize < U32
  few : all.length < v.runFuel
  cur : ∀ r, v.st.run = some r → RunOk img r ∧ r.allocatedSize < U32
  pend : ∃ post, v.Ahead img post ∧ (∀ r ∈ post, r ∈ all) ∧ post.length ≤ all.length ∧
    (Shift img (pending v.st post) all v.st.streamPosition ∨ v.st.seen = 0)

theorem ALVal.read32_good {img : Bytes} {all : List DataRun} {v : ALVal} (hg : v.Good32 img all)
    (himg : img.length < U64) (buf : Bytes) (d : Dev) (hd : d.Ok img) :
    ∃ got v' d', got = ((restBytes img all).drop v.st.streamPosition).take (min buf.length v.st.seen) ∧
      v.read32 buf d = (.ok got.length, v', got ++ buf.drop got.length, d') ∧
      v'.Good32 img all ∧ v'.st.dataSize = v.st.dataSize ∧
      v'.st.streamPosition = v.st.streamPosition + got.length ∧ d'.Ok img := by
  obtain ⟨post, hy, hsub, hlen, hp⟩ := hg.pend
  have hfew := hg.few
  obtain ⟨got, v', post', d', h1, h2, h3, h4, h5, h6, h7, h8, h9, h10⟩ :=
    ALVal.readLoop32_ok img (buf.length + v.runFuel + v.leftFuel) v buf 0 d post hd himg hy hg.cur
      (fun r hr => hg.allOk r (hsub r hr)) (by omega) (by omega)
  have hgot : got = ((restBytes img all).drop v.st.streamPosition).take (min buf.length v.st.seen) := by
    rw [h1, Nat.sub_zero]
    rcases hp with hp | hp
    · rw [hp.bytes]
    · rw [hp, Nat.min_zero, List.take_zero, List.take_zero]
  have hgl : got.length ≤ v.st.seen := by rw [h1, List.length_take]; omega
  have hb : overwrite buf 0 got = got ++ buf.drop got.length := by simp [overwrite]
  have e1 : v'.st.streamPosition = v.st.streamPosition + got.length := by rw [h5]
  have e2 : v'.st.dataSize = v.st.dataSize := by rw [h5]
  refine ⟨got, v', d', hgot, ?_, ⟨hg.allOk, by rw [runFuel_same h4]; exact hg.few, h7, post', h6,
    fun r hr => hsub r (h8 r hr), by omega, ?_⟩, e2, e1, h3⟩
  · unfold ALVal.read32
    rw [h2, hb, Nat.zero_add]
  · rcases h10 with h | h
    · rcases hp with hp | hp
      · left
        rw [e1]
        exact h.trans hp
      · right
        rw [hp] at hgl
        unfold StreamState.seen at hp ⊢
        rw [e1, e2, show got.length = 0 by omega]
        exact hp
    · exact .inr h

theorem ALVal.readsLike32 (img : Bytes) (all : List DataRun) (himg : img.length < U64) :
    ReadsLike ALVal.readFn32 (fun s => s.1.Good32 img all ∧ s.2.Ok img)
      (fun s => ((restBytes img all).drop s.1.st.streamPosition).take s.1.st.seen) (fun s => s.1.st.streamPosition) := by
  rintro ⟨v, d⟩ buf ⟨hg, hd⟩
  obtain ⟨got, v', d', h1, h2, h3, h4, h5, h6⟩ := ALVal.read32_good hg himg buf d hd
  dsimp only at hg hd h1 h2 h3 h4 h5 h6
  have h1' : got = (((restBytes img all).drop v.st.streamPosition).take v.st.seen).take buf.length := by
    rw [h1, List.take_take]
  dsimp only
  rw [← h1']
  refine ⟨(v', d'), ?_, ⟨h3, h6⟩, ?_, h5⟩
  · unfold ALVal.readFn32
    dsimp only
    rw [h2]
  · have hgl : got.length ≤ v.st.seen := by rw [h1, List.length_take]; omega
    have hs : v'.st.seen = v.st.seen - got.length := by
      unfold StreamState.seen at *
      rw [h4, h5]
      omega
    dsimp only
    rw [h5, hs, List.drop_take, List.drop_drop]

/-- **C87, partial**: a value that is split over several file records, with runs shorter than 4 GiB, on a 32-bit target.
Copying it with a loop of `read` calls ends without an error and delivers exactly the first `size % 2^32` bytes.

Full claim: all `size` bytes. -/
theorem C87_split_partial {ntfs : Ntfs} {img : Bytes} {mft : NFile} {mftEs : List Extent}
    {mpre : List Nat} {moff mlen mstart : Nat} (hm : MftStored ntfs img mft mftEs mpre moff mlen mstart)
    {inst : Nat} {ty : AttrType} (parts : List Part) (hne : parts ≠ [])
    (hp : ∀ p ∈ parts, p.Stored ntfs img mftEs inst ty)
    (hn : ∀ p ∈ parts, ∀ e ∈ p.es, e.count * ntfs.clusterSize < U32) (rest : List LEntry)
    (hr : OtherValue inst ty rest) (b : Bytes)
    (h : ListEncodes (parts.map Part.entry ++ rest) b) (l : AttrList) (hh : l.Holds img b)
    (a : Attr) (hal : a.list = some l) (han : a.file.ntfs = ntfs)
    (h56 : a.offset + 56 ≤ a.recordData.length) (hanr : field a.recordData (a.offset + 8) 1 ≠ 0)
    (hai : field a.recordData (a.offset + 14) 2 = inst) (hat : field a.recordData a.offset 4 = ty.code)
    (size : Nat) (has : field a.recordData (a.offset + 48) 8 = size)
    (d : Dev) (hd : d.NoFail) (hi : d.img = img) (buf : Bytes) (hb : buf ≠ []) (fuel : Nat) (hf : size % U32 < fuel) :
    ∃ v d1 v' d2, a.value d = (.ok (.list v), d1) ∧ v.len = size ∧
      copyLoop ALVal.readFn32 fuel (v, d1) buf [] =
        (.ok (), (v', d2), (content ntfs.clusterSize img (parts.flatMap Part.es)).take (size % U32)) := by
  obtain ⟨v, d1, h1, h2, h3, h4, gs, h5, h6, h7, _⟩ :=
    ALVal.value_good_run hm parts hne hp rest hr b h l hh a hal han h56 hanr hai hat size has d hd hi
  have hall : ∀ r ∈ gs.flatten, r.allocatedSize < U32 := by
    intro r hrm
    rw [h6] at hrm
    obtain ⟨e, he, rfl⟩ := List.mem_map.1 hrm
    obtain ⟨p, hpm, hep⟩ := List.mem_flatMap.1 he
    exact hn p hpm e hep
  have hsz : v.st.dataSize = size := h5.size.trans h3
  have hs : v.st.seen = size % U32 := by unfold StreamState.seen; rw [hsz, h4, Nat.sub_zero]
  have hg : v.Good32 img gs.flatten := by
    obtain ⟨post, hy, hsub, hlen, hpd⟩ := h5.pend
    refine ⟨fun r hr => ⟨(h5.allOk r hr).1, hall r hr⟩, h5.few, fun r hr => ⟨h5.curOk r hr, hall r (h7 r hr)⟩,
      post, hy, hsub, hlen, ?_⟩
    rcases hpd with hpd | hpd
    · exact .inl hpd
    · right
      unfold StreamState.seen
      rw [h5.size, show v.dataSize - v.st.streamPosition = 0 by omega]
  obtain ⟨⟨v', d2⟩, _, _, _, e⟩ := copyLoop_readsLike (ALVal.readsLike32 img _ hm.runs.imgLt) fuel (v, d1) buf [] ⟨hg, h2⟩ hb
    (by dsimp only; rw [hs, List.length_take]; omega)
  refine ⟨v, d1, v', d2, h1, h3, ?_⟩
  rw [e]
  dsimp only
  rw [hs, h4, h6, restBytes_runOf, List.drop_zero, List.nil_append]

set_option maxRecDepth 20000 in
/-- The value of C03 with a size of 2^32 + 100 in its first record: a copy ends after 100 bytes. -/
example : ∃ (a : Attr) (v v' : ALVal) (d1 d2 : Dev), a.value ⟨exPartsImage, 0, [.chunk 1, .chunk 3]⟩ = (.ok (.list v), d1) ∧
    v.len = U32 + 100 ∧ copyLoop ALVal.readFn32 101 (v, d1) [0, 0, 0] [] =
      (.ok (), (v', d2), List.replicate 64 0x77 ++ List.replicate 36 0x99) := by
  have h3 := ListEncodes.cons ⟨0xA0, 0, 1, 5, []⟩ [] [] []
    ⟨by decide, by decide, by decide, by decide, by decide, by decide⟩ (by decide) .nil
  have h2 := ListEncodes.cons (exPart 320 2 9).entry [] _ _
    ⟨by decide, by decide, by decide, by decide, by decide, by decide⟩ (by decide) h3
  have h1 := ListEncodes.cons (exPart 192 1 7).entry [] _ _
    ⟨by decide, by decide, by decide, by decide, by decide, by decide⟩ (by decide) h2
  obtain ⟨v, d1, v', d2, g1, g2, g3⟩ := C87_split_partial exPartsStored [exPart 192 1 7, exPart 320 2 9] (by simp)
    (by intro p hp; simp only [List.mem_cons, List.not_mem_nil, or_false] at hp
        rcases hp with rfl | rfl
        · exact exPart_stored.1
        · exact exPart_stored.2)
    (by intro p hp; simp only [List.mem_cons, List.not_mem_nil, or_false] at hp
        rcases hp with rfl | rfl <;> decide)
    [⟨0xA0, 0, 1, 5, []⟩] (by rintro e ⟨⟩; exact .inr ⟨.indexAllocation, rfl, by decide⟩) _ h1 (.resident _ none) rfl
    ⟨⟨exPartsNtfs, ⟨((exPartsImage.drop 192).take 128).set 108 1, some 192⟩, 1⟩, 56, some (.resident _ none)⟩ rfl rfl
    (by decide) (by decide) (by decide) (by decide) (U32 + 100) (by decide)
    ⟨exPartsImage, 0, [.chunk 1, .chunk 3]⟩ (by simp [Dev.NoFail]) rfl [0, 0, 0] (by decide) 101 (by decide)
  refine ⟨_, v, v', d1, d2, g1, g2, g3.trans ?_⟩
  have : (content exPartsNtfs.clusterSize exPartsImage ([exPart 192 1 7, exPart 320 2 9].flatMap Part.es)).take
      ((U32 + 100) % U32) = List.replicate 64 0x77 ++ List.replicate 36 0x99 := by decide +kernel
  rw [this]

end NT
