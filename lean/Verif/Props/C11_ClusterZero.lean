import Verif.Props.C01_NonResident

/-! Data runs at LCN 0 and data runs with delta 0: what exactly is read from a value that has some. -/

namespace NT

open Spec

namespace Spec

/-- The extents as the reader takes them: a stored run at LCN 0, or at the same LCN as the run before
it, counts as sparse. -/
def asRead : Nat → List Extent → List Extent
  | _, [] => []
  | prev, e :: es =>
    (if e.lcn = some 0 ∨ e.lcn = some prev then { e with lcn := none } else e) ::
      asRead (e.lcnAfter prev) es

/-- A value on disk with arbitrary stored runs (`StoredAs` without the condition `NonZero`). -/
structure StoredAny (cs : Nat) (img data : Bytes) (es : List Extent) : Prop where
  clusterPos : 0 < cs
  enc : Encodes 0 es data
  rep : ∀ e ∈ es, Representable cs e
  inImage : InImage cs img es
  imgLt : img.length < U64

end Spec

/-- One step of the iterator at a run with LCN 0 or delta 0. -/
theorem next_encoded_zero (r : DataRuns) (cb lb count l : Nat) (rest : Bytes)
    (hd : r.data.drop r.state.offset = encodeRun cb lb r.state.previousLcn ⟨count, some l⟩ ++ rest)
    (hw : WidthsOk cb lb r.state.previousLcn ⟨count, some l⟩)
    (hrep : Representable r.clusterSize ⟨count, some l⟩)
    (hbad : l = 0 ∨ l = r.state.previousLcn) :
    r.next = (some (.ok (runOf r.clusterSize ⟨count, none⟩)),
      { r with state :=
        ⟨r.state.offset + (encodeRun cb lb r.state.previousLcn ⟨count, some l⟩).length, l⟩ }) := by
  obtain ⟨h1, h2, h3, h4, h6, h7, h8⟩ := hw
  obtain ⟨hr1, hr2⟩ := hrep
  dsimp only at h3 h4 hr1 hr2 h8
  have hcount : leNat (leBytes cb count) = count := leNat_leBytes_of_lt h4
  have hmul : checkedMulU64 count r.clusterSize = some (count * r.clusterSize) := by
    simp only [checkedMulU64, if_pos hr1]
  simp only [encodeRun] at hd ⊢
  unfold DataRuns.next
  rw [hd]
  have hh : (UInt8.ofNat (16 * lb + cb)).toNat = 16 * lb + cb := by simp; omega
  have hne : UInt8.ofNat (16 * lb + cb) ≠ 0 := by
    intro h; have := congrArg UInt8.toNat h; rw [hh] at this; simp at this; omega
  simp only [List.cons_append, if_neg hne, hh, List.append_assoc]
  have hm : (16 * lb + cb) % 16 = cb := by omega
  have hq : (16 * lb + cb) / 16 = lb := by omega
  have hv := readVarUnsigned_append r (leBytes cb count)
    (sleBytes lb ((l : Int) - r.state.previousLcn) ++ rest) (by simp; omega)
  rw [leBytes_length] at hv
  have hs := readVarSigned_append r (sleBytes lb ((l : Int) - r.state.previousLcn)) rest
    (by simp; omega)
  rw [sleBytes_length, signExtend_sleBytes _ _ h7 h8] at hs
  by_cases hz : (l : Int) - r.state.previousLcn = 0
  · have hvz : ¬ ((l : Int) - r.state.previousLcn ≠ 0) := fun h => h hz
    simp only [hm, hq, hv, hs, hcount, hmul, if_neg (Nat.ne_of_gt h3), if_neg hvz]
    have hl : r.state.previousLcn = l := by omega
    simp [runOf, DataRun.new, hl]
    omega
  · have hl0 : l = 0 := by omega
    subst hl0
    have hpos : Lcn.position 0 r.clusterSize = .ok none := by
      simp [Lcn.position, checkedMulU64, Pos.new]
    have hvz : ((0 : Nat) : Int) - r.state.previousLcn ≠ 0 := hz
    simp only [hm, hq, hv, hs, hcount, hmul, if_neg (Nat.ne_of_gt h3), if_pos hvz,
      checkedAdd_diff _ _ (show 0 < U64 by decide), hpos]
    simp [runOf, DataRun.new]
    omega

/-- Every encoding yields the extents as read. -/
theorem yields_encoded_any (r : DataRuns) (es : List Extent)
    (henc : Encodes r.state.previousLcn es (r.data.drop r.state.offset))
    (hcs : 0 < r.clusterSize) (hrep : ∀ e ∈ es, Representable r.clusterSize e) :
    Yields r ((asRead r.state.previousLcn es).map (runOf r.clusterSize)) := by
  induction es generalizing r with
  | nil =>
    generalize hx : r.data.drop r.state.offset = x at henc
    cases henc with
    | atEnd => exact .done (r' := r) (by simp [DataRuns.next, hx])
    | terminated rest => exact .done (by simp [DataRuns.next, hx]; rfl)
  | cons e es ih =>
    generalize hx : r.data.drop r.state.offset = x at henc
    cases henc with
    | run _ cb lb _ _ rest hw henc =>
      have hn : r.next = (some (.ok (runOf r.clusterSize
          (if e.lcn = some 0 ∨ e.lcn = some r.state.previousLcn then { e with lcn := none } else e))),
          { r with state := ⟨r.state.offset + (encodeRun cb lb r.state.previousLcn e).length,
            e.lcnAfter r.state.previousLcn⟩ }) := by
        by_cases hb : e.lcn = some 0 ∨ e.lcn = some r.state.previousLcn
        · rw [if_pos hb]
          obtain ⟨count, lcn⟩ := e
          cases lcn with
          | none => rcases hb with hb | hb <;> cases hb
          | some l =>
            exact next_encoded_zero r cb lb count l _ hx hw (hrep _ (by simp)) (by
              rcases hb with hb | hb <;> injection hb with hb
              · exact .inl hb
              · exact .inr hb)
        · rw [if_neg hb]
          refine next_encoded r cb lb e _ hx hw (hrep e (by simp)) hcs (fun l hl => ⟨?_, ?_⟩)
          · intro h; exact hb (.inl (by rw [hl, h]))
          · intro h; exact hb (.inr (by rw [hl, h]))
      refine .step hn (ih _ ?_ hcs (fun e he => hrep e (by simp [he])))
      dsimp only
      rw [← List.drop_drop, hx, List.drop_left]
      exact henc

/-- What `asRead` keeps: sizes, and LCNs that are neither 0 nor repeated. -/
theorem asRead_mem (prev : Nat) (es : List Extent) : ∀ e ∈ asRead prev es,
    (e ∈ es ∨ ∃ e' ∈ es, e = { e' with lcn := none }) ∧ e.lcn ≠ some 0 := by
  induction es generalizing prev with
  | nil => intro e he; cases he
  | cons x xs ih =>
    intro e he
    simp only [asRead, List.mem_cons] at he
    rcases he with he | he
    · by_cases hb : x.lcn = some 0 ∨ x.lcn = some prev
      · rw [if_pos hb] at he
        subst he
        exact ⟨.inr ⟨x, by simp, rfl⟩, by simp⟩
      · rw [if_neg hb] at he
        subst he
        exact ⟨.inl (by simp), fun h => hb (.inl h)⟩
    · obtain ⟨h1, h2⟩ := ih _ e he
      refine ⟨?_, h2⟩
      rcases h1 with h1 | ⟨e', h1, h3⟩
      · exact .inl (by simp [h1])
      · exact .inr ⟨e', by simp [h1], h3⟩

theorem asRead_length (prev : Nat) (es : List Extent) : (asRead prev es).length = es.length := by
  induction es generalizing prev with
  | nil => rfl
  | cons x xs ih => simp [asRead, ih]

theorem encodes_counts {prev : Nat} {es : List Extent} {data : Bytes} (h : Encodes prev es data) :
    ∀ e ∈ es, 0 < e.count := by
  induction h with
  | atEnd => simp
  | terminated => simp
  | run prev cb lb e' es rest hw _ ih =>
    intro e he
    rcases List.mem_cons.1 he with he | he
    · subst he; exact hw.2.2.1
    · exact ih e he

theorem Spec.StoredAny.runsOk {cs : Nat} {img data : Bytes} {es : List Extent}
    (h : StoredAny cs img data es) :
    ∀ r ∈ (asRead 0 es).map (runOf cs), RunOk img r ∧ r.streamPosition = 0 := by
  intro r hr
  obtain ⟨e, he, rfl⟩ := List.mem_map.1 hr
  obtain ⟨h1, h2⟩ := asRead_mem 0 es e he
  have hc := encodes_counts h.enc
  rcases h1 with h1 | ⟨e', h1, rfl⟩
  · refine ⟨⟨by simp [runOf], (h.rep e h1).1, ?_, Nat.mul_pos (hc e h1) h.clusterPos, ?_⟩, rfl⟩
    all_goals
      intro p hp
      rcases e with ⟨c, _ | l⟩
      · simp [runOf] at hp
      · simp [runOf] at hp
        have h3 := h.inImage _ h1 l rfl
        have h4 : 0 < l := by
          rcases Nat.eq_zero_or_pos l with hl | hl
          · subst hl; exact absurd rfl h2
          · exact hl
        dsimp only at h3
        first
        | (simp only [runOf]; omega)
        | (subst hp; exact Nat.mul_pos h4 h.clusterPos)
  · exact ⟨⟨by simp [runOf], (h.rep e' h1).1, by simp [runOf],
      Nat.mul_pos (hc e' h1) h.clusterPos, by simp [runOf]⟩, rfl⟩

/-- C11, the part that holds, and exactly what is read otherwise: a value with any stored runs opens,
and every history of reads and seeks gives the results of the same history on an in-memory file with
the bytes of all runs in order, where the runs at LCN 0 and those with delta 0 are replaced by zeros.
Missing: the bytes of those runs themselves (`C11_negation`). -/
theorem C11_flat_file_partial (cs : Nat) (img data : Bytes) (es : List Extent) (p : Pos) (size : Nat)
    (h : StoredAny cs img data es) (hsize : size < U64) (d : Dev) (hd : d.NoFail) (hi : d.img = img)
    (ops : List Op) (hops : ∀ op ∈ ops, op.InRange) :
    ∃ v, NonRes.new cs data p size = .ok v ∧
      (v.run d ops).1 = (Flat.run
        { content := (content cs img (asRead 0 es)).take size, len := size, pos := 0 } ops).1 ∧
      (v.run d ops).2.1.streamPosition = (Flat.run
        { content := (content cs img (asRead 0 es)).take size, len := size, pos := 0 } ops).2.pos := by
  obtain ⟨v, h1, h2, h3, h4, _⟩ := NonRes.new_good_runs (img := img) p
    (yields_encoded_any (DataRuns.new cs data p) es (by simpa [DataRuns.new] using h.enc)
      h.clusterPos h.rep)
    h.runsOk (by rw [List.length_map, asRead_length]; exact encodes_length _ _ _ h.enc) size hsize
  obtain ⟨i1, i2, _⟩ := NonRes.run_refines img _ h.imgLt ops hops v h2 d hd hi
  have hf : v.flat img ((asRead 0 es).map (runOf cs)) =
      { content := (content cs img (asRead 0 es)).take size, len := size, pos := 0 } := by
    unfold NonRes.flat
    rw [restBytes_runOf, h3, h4]
  have hf' : v.flat img (((asRead (DataRuns.new cs data p).state.previousLcn es)).map
      (runOf (DataRuns.new cs data p).clusterSize)) =
      { content := (content cs img (asRead 0 es)).take size, len := size, pos := 0 } := hf
  rw [hf'] at i1 i2
  exact ⟨v, h1, i1, by rw [← i2]⟩

/-- The bytes at index `i` of both contents agree unless `i` lies in a run that is taken for sparse:
replacing runs by zeros does not move anything. -/
theorem C11_nothing_moves (cs : Nat) (img : Bytes) (prev : Nat) (es : List Extent)
    (hin : InImage cs img es) :
    (content cs img (asRead prev es)).length = (content cs img es).length ∧
      ∀ i : Nat, (content cs img (asRead prev es))[i]? = (content cs img es)[i]? ∨
        (content cs img (asRead prev es))[i]? = some 0 := by
  induction es generalizing prev with
  | nil => exact ⟨rfl, fun i => .inl rfl⟩
  | cons e es ih =>
    obtain ⟨h1, h2⟩ := ih (e.lcnAfter prev) (fun x hx => hin x (by simp [hx]))
    simp only [content, asRead, List.flatMap_cons] at h1 h2 ⊢
    have hl : (Extent.bytes cs img
        (if e.lcn = some 0 ∨ e.lcn = some prev then { e with lcn := none } else e)).length =
        (Extent.bytes cs img e).length := by
      split
      · rename_i hb
        obtain ⟨c, lcn⟩ := e
        cases lcn with
        | none => rfl
        | some l =>
          have := hin ⟨c, some l⟩ (by simp) l rfl
          dsimp only at this
          simp [Extent.bytes]
          omega
      · rfl
    refine ⟨by rw [List.length_append, List.length_append, h1, hl], fun i => ?_⟩
    by_cases hi : i < (Extent.bytes cs img e).length
    · rw [List.getElem?_append_left (by omega), List.getElem?_append_left hi]
      split
      · right
        have hlen : i < e.count * cs := by
          rw [← hl] at hi
          rename_i hb
          rw [if_pos hb] at hi
          simpa [Extent.bytes] using hi
        simp [Extent.bytes, List.getElem?_replicate, hlen]
      · left; rfl
    · rw [List.getElem?_append_right (by omega), List.getElem?_append_right (by omega), hl]
      exact h2 _

/-- A value that is affected: clusters of 4 bytes, two runs: one cluster at LCN 0, one at LCN 2. Only
the first four bytes are wrong. -/
theorem exampleStoredAny : StoredAny 4 [1, 1, 2, 3, 4, 5, 6, 7, 8, 9, 10, 11]
    [0x11, 1, 0, 0x11, 1, 2] [⟨1, some 0⟩, ⟨1, some 2⟩] where
  clusterPos := by decide
  enc := by
    refine .run 0 1 1 _ _ _ ?_ (.run _ 1 1 _ _ _ ?_ (.atEnd _))
    · simp [WidthsOk, FitsSigned]
    · simp [WidthsOk, FitsSigned, Extent.lcnAfter]
  rep := by simp [Representable]
  inImage := by simp [InImage]
  imgLt := by decide

example : content 4 [1, 1, 2, 3, 4, 5, 6, 7, 8, 9, 10, 11] [⟨1, some 0⟩, ⟨1, some 2⟩] =
      [1, 1, 2, 3, 8, 9, 10, 11] ∧
    content 4 [1, 1, 2, 3, 4, 5, 6, 7, 8, 9, 10, 11] (asRead 0 [⟨1, some 0⟩, ⟨1, some 2⟩]) =
      [0, 0, 0, 0, 8, 9, 10, 11] := by decide

/-- Both theorems on that value, whose first run starts at cluster 0. -/
example := C11_flat_file_partial 4 _ _ _ none 7 exampleStoredAny (by decide)
  ⟨[1, 1, 2, 3, 4, 5, 6, 7, 8, 9, 10, 11], 0, [.chunk 2]⟩ (by simp [Dev.NoFail]) rfl [.seek (.start 2), .read [7, 7, 7, 7]] (by decide)
example := C11_nothing_moves 4 [1, 1, 2, 3, 4, 5, 6, 7, 8, 9, 10, 11] 0 [⟨1, some 0⟩, ⟨1, some 2⟩] (by simp [InImage])

end NT
