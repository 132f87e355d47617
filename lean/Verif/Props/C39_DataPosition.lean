import Verif.Props.C01_NonResident

namespace NT

open Spec

/-- The device address of the byte with index `t` in a value stored as the extents; `none` if the byte
lies in a sparse extent or behind the last extent. -/
def Spec.addressOf (cs : Nat) : List Extent → Nat → Option Nat
  | [], _ => none
  | e :: es, t =>
    if t < e.count * cs then e.lcn.map (fun l => l * cs + t) else addressOf cs es (t - e.count * cs)

theorem addrAt_runOf (cs : Nat) (es : List Extent) (t : Nat) :
    addrAt (es.map (runOf cs)) t = addressOf cs es t := by
  induction es generalizing t with
  | nil => rfl
  | cons e es ih =>
    simp only [List.map_cons, addrAt, addressOf]
    rcases e with ⟨c, _ | l⟩ <;> simp only [runOf, Nat.sub_zero, ih, Option.map]
    rfl

theorem DataRun.dataPosition_lt {img : Bytes} (r : DataRun) (h : RunOk img r)
    (himg : img.length < U64) (hlt : r.streamPosition < r.allocatedSize) :
    r.dataPosition = r.position.map (· + r.streamPosition) := by
  unfold DataRun.dataPosition
  rw [if_pos (by omega)]
  cases hp : r.position with
  | none => rfl
  | some p =>
    have := h.inside p hp
    have := h.placed.2 p hp
    simp only [Pos.add, Option.map]
    rw [Nat.mod_eq_of_lt (by omega)]
    simp only [Pos.new]
    rw [if_neg (by omega)]

/-- After the loop of `seek` the current run is the one with the target byte. -/
theorem seekLoop_dataPosition (img : Bytes) (himg : img.length < U64) (fuel : Nat) (v : NonRes) (pos : SeekFrom) (left : Nat)
    (post : List DataRun) (hy : Yields v.runs post)
    (hcur : ∀ r, v.st.run = some r → RunOk img r ∧ (left = 0 → r.streamPosition < r.allocatedSize))
    (hnone : v.st.run = none → left = 0 → post = [])
    (hpost : ∀ r ∈ post, RunOk img r ∧ r.streamPosition = 0)
    (hm : SeekMode pos v.st) (hI : ∀ n, pos = .current n → left < I63)
    (hfuel : post.length < fuel) :
    (NonRes.seekLoop fuel v pos left).2.dataPosition = addrAt (pending v.st post) left := by
  induction fuel generalizing v left post with
  | zero => omega
  | succ fuel ih =>
    unfold NonRes.seekLoop
    by_cases hleft : left > 0
    case neg =>
      rw [if_neg hleft]
      have : left = 0 := by omega
      subst this
      unfold NonRes.dataPosition StreamState.dataPosition
      cases hr : v.st.run with
      | none => rw [hnone hr rfl]; simp [pending, hr, addrAt]
      | some r =>
        obtain ⟨h1, h4⟩ := hcur r hr
        have h4 := h4 rfl
        simp only [pending, hr, Option.toList, List.cons_append, addrAt]
        rw [if_pos (by omega), DataRun.dataPosition_lt r h1 himg h4]
        rfl
    rw [if_pos hleft]
    by_cases hskip : ∀ r, v.st.run = some r → r.allocatedSize - r.streamPosition ≤ left
    · obtain ⟨k, he, hpend⟩ : ∃ k, v.st.seekDataRun pos left = (.ok false, v.st, left - k) ∧
          addrAt (pending v.st post) left = addrAt post (left - k) := by
        rw [seekDataRun_skip _ _ _ hskip]
        cases hr : v.st.run with
        | none => exact ⟨0, rfl, by simp [pending, hr]⟩
        | some r =>
          refine ⟨_, rfl, ?_⟩
          have := hskip r hr
          simp only [pending, hr, Option.toList, List.cons_append, List.nil_append, addrAt]
          rw [if_neg (by omega)]
      rw [he]
      dsimp only
      rw [hpend]
      cases post with
      | nil =>
        obtain ⟨runs', e, hy'⟩ := nextDataRun_done' v hy
        rw [e]
        simp [NonRes.dataPosition, StreamState.dataPosition, addrAt]
      | cons x xs =>
        obtain ⟨runs', e, hy'⟩ := nextDataRun_step v x xs hy
        rw [e]
        dsimp only
        have hx := hpost x (by simp)
        rw [ih { v with runs := runs', st := { v.st with run := some x } } (left - k) xs hy'
            (by
              intro r hr; injection hr with hr; subst hr
              exact ⟨hx.1, by have := hx.1.placed.1; have := hx.2; omega⟩)
            (by intro h; cases h)
            (fun r hr => hpost r (by simp [hr]))
            (by
              cases pos with
              | start n => intro r hr; injection hr with hr; subst hr; exact hx.2
              | current n => trivial
              | end_ n => exact hm.elim)
            (by intro n hn; have := hI n hn; omega) (by simp at hfuel; omega)]
        simp [pending]
    · have hr : ∃ r, v.st.run = some r ∧ left < r.allocatedSize - r.streamPosition := by
        cases hr : v.st.run with
        | none => exact absurd (fun r h => by rw [hr] at h; cases h) hskip
        | some r =>
          refine ⟨r, rfl, ?_⟩
          by_cases hh : r.allocatedSize - r.streamPosition ≤ left
          · exact absurd (fun r' h => by rw [hr] at h; injection h with h; subst h; exact hh) hskip
          · omega
      obtain ⟨r, hr, hlt⟩ := hr
      obtain ⟨h1, h4⟩ := hcur r hr
      rw [seekDataRun_final _ _ _ r hr hlt hm h1.lt hI]
      dsimp only [NonRes.dataPosition, StreamState.dataPosition]
      have hle := h1.le
      have hok' : RunOk img { r with streamPosition := r.streamPosition + left } :=
        ⟨by dsimp only; omega, h1.lt, h1.inside, h1.placed⟩
      rw [DataRun.dataPosition_lt _ hok' himg (by dsimp only; omega)]
      dsimp only
      simp only [pending, hr, Option.toList, List.cons_append, addrAt]
      rw [if_pos hlt]
      cases r.position with
      | none => rfl
      | some p => simp only [Option.map]; congr 1; omega

theorem Yields.unique {r : DataRuns} {a b : List DataRun} (ha : Yields r a) (hb : Yields r b) :
    a = b := by
  induction ha generalizing b with
  | done h =>
    cases hb with
    | done _ => rfl
    | step h' _ => rw [h] at h'; cases h'
  | step h _ ih =>
    cases hb with
    | done h' => rw [h] at h'; cases h'
    | step h' hb' =>
      rw [h] at h'
      cases h'
      rw [ih hb']

/-- The reader has not moved yet: the current run is the first one. -/
def NonRes.Untouched (all : List DataRun) (v : NonRes) : Prop :=
  v.st.streamPosition = 0 ∧
    ∃ post, Yields v.runs post ∧ pending v.st post = all ∧ (v.st.run = none → post = [])

/-- Where the next byte is after a seek, for a reader in the middle of any history. -/
theorem NonRes.seek_dataPosition (img : Bytes) (himg : img.length < U64) (all : List DataRun)
    (v : NonRes) (hg : v.Good img all) (s : SeekFrom) (hs : s.InRange)
    (hv : validTarget (seekTarget v.st.streamPosition v.st.dataSize s))
    (hne : (seekTarget v.st.streamPosition v.st.dataSize s).toNat ≠ v.st.streamPosition ∧
      (seekTarget v.st.streamPosition v.st.dataSize s).toNat < v.st.dataSize ∨ v.Untouched all) :
    (v.seek s).2.dataPosition =
      addrAt all (seekTarget v.st.streamPosition v.st.dataSize s).toNat := by
  have hspec := optimizeSeek_spec v.st s v.st.dataSize hs hg.posLt hg.sizeLt
  obtain ⟨t, ht⟩ : ∃ t, t = seekTarget v.st.streamPosition v.st.dataSize s := ⟨_, rfl⟩
  unfold NonRes.seek
  rw [← ht] at hspec hv hne ⊢
  rw [if_pos hv] at hspec
  have hfew := hg.few
  have hposLt := hg.posLt
  simp only [validTarget] at hv
  by_cases hc : v.st.streamPosition ≤ t.toNat ∧ t.toNat - v.st.streamPosition < I63
  · rw [if_pos hc] at hspec
    unfold NonRes.len
    rw [hspec]
    dsimp only
    rw [if_pos (by omega)]
    obtain ⟨post, hy, hsub, hlen, hp⟩ := hg.pend
    have hp : Shift img (pending v.st post) all v.st.streamPosition := by
      rcases hp with hp | hp
      · exact hp
      · rcases hne with hin | ⟨h0, post2, hy2, h2, _⟩
        · omega
        · rw [hy.unique hy2, h2, h0]; exact Shift.refl _ _
    have hn : (((t.toNat - v.st.streamPosition : Nat) : Int)).toNat = t.toNat - v.st.streamPosition :=
      by omega
    rw [hn]
    have hzero : t.toNat - v.st.streamPosition = 0 →
        pending v.st post = all ∧ (v.st.run = none → post = []) := by
      intro h0
      rcases hne with hne | ⟨h1, post2, hy2, h2, h3⟩
      · omega
      · rw [hy.unique hy2]; exact ⟨h2, h3⟩
    have key := seekLoop_dataPosition img himg (v.data.length + 2) v
        (.current ((t.toNat - v.st.streamPosition : Nat) : Int)) (t.toNat - v.st.streamPosition) post hy
        (by
          intro r hr
          refine ⟨hg.curOk r hr, ?_⟩
          intro h0
          obtain ⟨h2, _⟩ := hzero h0
          have hm : r ∈ all := by rw [← h2]; simp [pending, hr]
          have := (hg.allOk r hm).2
          have := (hg.allOk r hm).1.placed.1
          omega)
        (fun hr h0 => (hzero h0).2 hr)
        (fun r hr => hg.allOk r (hsub r hr)) trivial (fun _ _ => hc.2) (by omega)
    obtain ⟨v2, _, h1, h2, _⟩ :=
      seekLoop_ok img (v.data.length + 2) v
        (.current ((t.toNat - v.st.streamPosition : Nat) : Int)) (t.toNat - v.st.streamPosition) post hy
        hg.curOk (fun r hr => hg.allOk r (hsub r hr)) trivial (fun _ _ => hc.2) (by omega)
    rw [h1] at key ⊢
    have e1 : v2.st.streamPosition = v.st.streamPosition := by rw [h2]
    dsimp only at key ⊢
    rw [e1, if_pos (by omega)]
    change v2.dataPosition = _
    rw [key, hp.addr]
    congr 1; omega
  · rw [if_neg hc] at hspec
    unfold NonRes.len
    rw [hspec]
    dsimp only
    obtain ⟨v1, post, g1, g2, g3, g4, g5, g6, g7, g8, g9, g10⟩ := NonRes.rewind_good img all v hg
    rw [g1]
    dsimp only
    have hnone : v1.st.run = none → post = [] := by
      intro hr
      cases post with
      | nil => rfl
      | cons x xs =>
        exfalso
        have := hg.fresh
        simp only [hr, Option.toList, List.nil_append] at g7
        rw [← g7] at this
        obtain ⟨runs', e, _⟩ := nextDataRun_step
          { v with runs := v.dataRuns, st := StreamState.new v.len } x xs this
        unfold NonRes.rewind at g1
        rw [e] at g1
        injection g1 with _ g1
        rw [← g1] at hr
        cases hr
    have key := seekLoop_dataPosition img himg (v.data.length + 2) v1 (.start t.toNat) t.toNat post g6
        (by
          intro r hr
          have := (hg.allOk r (g8 r hr)).2
          have := (hg.allOk r (g8 r hr)).1.placed.1
          exact ⟨(hg.allOk r (g8 r hr)).1, by omega⟩)
        (fun hr _ => hnone hr) (fun r hr => hg.allOk r (g9 r hr))
        (fun r hr => (hg.allOk r (g8 r hr)).2) (by intro n hn; cases hn) (by omega)
    obtain ⟨v2, _, h1, _⟩ :=
      seekLoop_ok img (v.data.length + 2) v1 (.start t.toNat) t.toNat post g6
        (fun r hr => (hg.allOk r (g8 r hr)).1) (fun r hr => hg.allOk r (g9 r hr))
        (fun r hr => (hg.allOk r (g8 r hr)).2) (by intro n hn; cases hn) (by omega)
    rw [h1] at key ⊢
    dsimp only at key ⊢
    change v2.dataPosition = _
    rw [key]
    unfold pending
    rw [g7]

theorem NonRes.new_run_none {cs : Nat} {data : Bytes} {p : Pos} {size : Nat} {v : NonRes}
    (h : NonRes.new cs data p size = .ok v) (hr : v.st.run = none) : Yields v.runs [] := by
  unfold NonRes.new at h
  simp only [NonRes.nextDataRun] at h
  split at h
  · rename_i heq
    split at heq
    · rename_i hn
      cases heq; cases h
      exact yields_nil_next hn
    all_goals (cases heq; try (cases h; cases hr))
  all_goals cases h

/-- C39: seeking a freshly opened value to any stream position `t` (inside or outside the value) puts
`data_position()` at the device address of byte `t`: `none` exactly for sparse runs and behind the
last run. -/
theorem C39_fresh_seek (cs : Nat) (img data : Bytes) (es : List Extent) (p : Pos) (size : Nat)
    (h : StoredAs cs img data es) (hsize : size < U64) (s : SeekFrom) (hs : s.InRange)
    (hv : validTarget (seekTarget 0 size s)) :
    ∃ v v', NonRes.new cs data p size = .ok v ∧ v.dataPosition = addressOf cs es 0 ∧
      v.seek s = (.ok (seekTarget 0 size s).toNat, v') ∧
      v'.dataPosition = addressOf cs es (seekTarget 0 size s).toNat := by
  obtain ⟨v, h1, h2, h3, h4, h5, post, h6, h7⟩ := NonRes.new_good h p size hsize
  have hun : v.Untouched (es.map (runOf cs)) :=
    ⟨h4, post, h6, h7, fun hr => h6.unique (NonRes.new_run_none h1 hr)⟩
  have hsk := NonRes.seek_good img _ v h2 s hs
  rw [h3, h4, if_pos hv] at hsk
  obtain ⟨v', g1, _⟩ := hsk
  have key := NonRes.seek_dataPosition img h.imgLt _ v h2 s hs (by rw [h3, h4]; exact hv) (.inr hun)
  rw [h3, h4, addrAt_runOf, g1] at key
  have key0 := NonRes.seek_dataPosition img h.imgLt _ v h2 (.start 0) (by decide)
    (by simp [seekTarget, validTarget]) (.inr hun)
  have hz : (v.seek (.start 0)).2.dataPosition = v.dataPosition := by
    unfold NonRes.seek
    have hspec := optimizeSeek_spec v.st (.start 0) v.st.dataSize (by decide) h2.posLt h2.sizeLt
    rw [h4, if_pos (by simp [seekTarget, validTarget]), if_pos (by simp [seekTarget])] at hspec
    unfold NonRes.len
    rw [hspec]
    simp [seekTarget, NonRes.seekLoop, h4, NonRes.dataPosition, StreamState.dataPosition]
  rw [hz, addrAt_runOf, h3, h4] at key0
  exact ⟨v, v', h1, by simpa [seekTarget] using key0, g1, key⟩

theorem Spec.Flat.run_len' (ops : List Op) (f : Flat) : (f.run ops).2.len = f.len := by
  induction ops generalizing f with
  | nil => rfl
  | cons op ops ih =>
    simp only [Flat.run, ih]
    cases op with
    | read buf => rfl
    | seek s => simp only [Flat.step]; split <;> rfl

/-- C39 in the middle of any history: a seek that moves the cursor to `t` inside the value puts
`data_position()` at the device address of byte `t`. -/
theorem C39_seek_after_history (cs : Nat) (img data : Bytes) (es : List Extent) (p : Pos) (size : Nat)
    (h : StoredAs cs img data es) (hsize : size < U64) (d : Dev) (hd : d.NoFail) (hi : d.img = img)
    (ops : List Op) (hops : ∀ op ∈ ops, op.InRange) (cur : Nat)
    (hcur : cur = (Flat.run ⟨(content cs img es).take size, size, 0⟩ ops).2.pos)
    (s : SeekFrom) (hs : s.InRange) (t : Nat) (ht : seekTarget cur size s = t) (hlt : t < size)
    (hne : t ≠ cur) :
    ∃ v v', NonRes.new cs data p size = .ok v ∧ (v.run d ops).2.1.seek s = (.ok t, v') ∧
      v'.dataPosition = addressOf cs es t := by
  obtain ⟨v, h1, h2, h3, h4, h5, post, h6, h7⟩ := NonRes.new_good h p size hsize
  obtain ⟨i1, i2, i3, _⟩ := NonRes.run_refines img _ h.imgLt ops hops v h2 d hd hi
  have hf : v.flat img (es.map (runOf cs)) = ⟨(content cs img es).take size, size, 0⟩ := by
    unfold NonRes.flat
    rw [restBytes_runOf, h3, h4]
  rw [hf] at i2
  obtain ⟨w, hw0⟩ : ∃ w, w = (v.run d ops).2.1 := ⟨_, rfl⟩
  rw [← hw0] at i2 i3
  have hw : w.st.streamPosition = cur := by
    rw [hcur, ← i2]
  have hws : w.st.dataSize = size := by
    have := congrArg Flat.len i2
    rw [Flat.run_len'] at this
    exact this
  have hsk := NonRes.seek_good img _ w i3 s hs
  have hvt : validTarget (seekTarget cur size s) := by rw [ht]; simp only [validTarget]; omega
  rw [hw, hws, if_pos hvt] at hsk
  obtain ⟨v', g1, _⟩ := hsk
  have ht' : (seekTarget cur size s).toNat = t := by rw [ht]; rfl
  have key := NonRes.seek_dataPosition img h.imgLt _ w i3 s hs (by rw [hw, hws]; exact hvt)
    (.inl (by rw [hw, hws, ht']; exact ⟨hne, hlt⟩))
  rw [hw, hws, addrAt_runOf, g1, ht'] at key
  rw [ht', hw0] at g1
  exact ⟨v, v', h1, g1, key⟩

/-- What the address is good for: the byte stored there is byte `t` of the value; without an address,
byte `t` is zero. -/
theorem C39_address_holds_byte (cs : Nat) (img : Bytes) (es : List Extent) (h : InImage cs img es)
    (t : Nat) (ht : t < (content cs img es).length) :
    (∀ a, addressOf cs es t = some a → (content cs img es)[t]? = img[a]? ∧ a < img.length) ∧
    (addressOf cs es t = none → (content cs img es)[t]? = some 0) := by
  induction es generalizing t with
  | nil => simp [content] at ht
  | cons e es ih =>
    have hbl : (e.bytes cs img).length = e.count * cs := by
      rcases e with ⟨c, _ | l⟩
      · simp [Extent.bytes]
      · have := h ⟨c, some l⟩ (by simp) l rfl
        simp only [Extent.bytes, List.length_take, List.length_drop] at this ⊢
        omega
    have hc : content cs img (e :: es) = e.bytes cs img ++ content cs img es := by
      simp [content]
    rw [hc] at ht ⊢
    rw [List.length_append, hbl] at ht
    simp only [addressOf]
    by_cases hlt : t < e.count * cs
    · rw [if_pos hlt, List.getElem?_append_left (by omega)]
      rcases e with ⟨c, _ | l⟩
      · simp only [Extent.bytes, Option.map]
        refine ⟨by simp, fun _ => ?_⟩
        rw [List.getElem?_replicate, if_pos hlt]
      · have := h ⟨c, some l⟩ (by simp) l rfl
        dsimp only at this hlt
        simp only [Extent.bytes, Option.map]
        refine ⟨fun a ha => ?_, by simp⟩
        injection ha with ha
        subst ha
        rw [List.getElem?_take, if_pos hlt, List.getElem?_drop]
        exact ⟨rfl, by omega⟩
    · rw [if_neg hlt, List.getElem?_append_right (by omega), hbl]
      exact ih (fun e he => h e (by simp [he])) _ (by omega)

/-- The value of `exampleStored`: bytes 0-3 at 8, bytes 4-7 sparse, bytes 8-11 at 4. -/
example : (List.range 13).map (addressOf 4 [⟨1, some 2⟩, ⟨1, none⟩, ⟨1, some 1⟩]) =
    [some 8, some 9, some 10, some 11, none, none, none, none, some 4, some 5, some 6, some 7, none] := by
  decide

example : ∃ v v', NonRes.new 4 [0x11, 1, 2, 0x01, 1, 0x11, 1, 0xFF, 0] none 10 = .ok v ∧
    v.dataPosition = some 8 ∧ v.seek (.end_ (-1)) = (.ok 9, v') ∧ v'.dataPosition = some 5 :=
  C39_fresh_seek 4 _ _ _ none 10 exampleStored (by decide) (.end_ (-1)) ⟨by decide, by decide⟩ (by decide)

/-- The hypothesis `t ≠ cur` of `C39_seek_after_history` is needed: after a read that ends at the end
of a run, a seek to the same position leaves `data_position()` behind the last byte of that run. -/
theorem C39_boundary_negation : ∃ v v' d', NonRes.new 4 [0x11, 1, 2, 0x01, 1, 0x11, 1, 0xFF, 0] none 10 = .ok v ∧
    v.read [0, 0, 0, 0] ⟨[0, 1, 2, 3, 4, 5, 6, 7, 8, 9, 10, 11], 0, []⟩ = (.ok 4, v', [8, 9, 10, 11], d') ∧
    (v'.seek (.start 4)).1 = .ok 4 ∧ (v'.seek (.start 4)).2.dataPosition = some 12 ∧
    addressOf 4 [⟨1, some 2⟩, ⟨1, none⟩, ⟨1, some 1⟩] 4 = none :=
  ⟨_, _, _, rfl, rfl, by decide, by decide, by decide⟩

/-- `C39_address_holds_byte` on the same value. -/
example := C39_address_holds_byte 4 [0, 1, 2, 3, 4, 5, 6, 7, 8, 9, 10, 11] [⟨1, some 2⟩, ⟨1, none⟩, ⟨1, some 1⟩] (by simp [InImage]) 9
  (by decide)

end NT
