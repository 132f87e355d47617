import Verif.Props.C77_Positions
import Verif.Lemmas.Retry

/-! C77 for index records, the entries of a whole index, index roots, attribute lists and file record errors. -/

namespace NT

open Spec

/-! ### Index records -/

theorem IndexRecord.new_ok {v : Val} {size : Nat} {d d' : Dev} {r : IndexRecord}
    (h : IndexRecord.new v size d = (.ok r, d')) :
    ∃ b, v.readInto size d = (.ok b, d') ∧ IndexRecord.ofBytes b v.dataPosition = .ok r := by
  unfold IndexRecord.new at h
  rw [StM.bind_apply] at h
  split at h
  · rename_i b d1 he
    have h1 := congrArg Prod.fst h
    have h2 := congrArg Prod.snd h
    dsimp only [StM.lift] at h1 h2
    subst h2
    exact ⟨b, he, h1⟩
  all_goals cases congrArg Prod.fst h

theorem IndexRecord.ofBytes_fixup {b : Bytes} {p : Pos} {r : IndexRecord} (h : IndexRecord.ofBytes b p = .ok r) :
    (Record.mk b p).fixup = .ok r.record := by
  unfold IndexRecord.ofBytes at h
  rw [Res.bind_eq_ok] at h
  obtain ⟨_, _, h⟩ := h
  rw [Res.bind_eq_ok] at h
  obtain ⟨x, hx, h⟩ := h
  rw [Res.bind_eq_ok] at h
  obtain ⟨_, _, h⟩ := h
  cases h
  exact hx

/-- A record that is read at a place of a stored value where it lies in one piece is found at its position. -/
theorem IndexRecord.new_found {cs : Nat} {img : Bytes} {es : List Extent} (hin : InImage cs img es)
    (himg : img.length < U64) {v : NonRes} (hg : v.Good img (es.map (runOf cs)))
    (hp : v.dataPosition = addressOf cs es v.st.streamPosition) {size : Nat}
    (hone : InOneExtent cs es v.st.streamPosition size) {d d' : Dev} (hd : d.Ok img) {r : IndexRecord}
    (h : IndexRecord.new (.simple (.nonRes v)) size d = (.ok r, d')) :
    d'.Ok img ∧ ∃ a, addressOf cs es v.st.streamPosition = some a ∧ 0 < a ∧ RecordFound img r.record a := by
  obtain ⟨b, hb, hr⟩ := IndexRecord.new_ok h
  have hh : (Val.simple (.nonRes v)).Has img ((content cs img es).take v.st.dataSize) :=
    ⟨himg, _, hg, by rw [restBytes_runOf]⟩
  obtain ⟨d2, e, hd2⟩ := hh.readIntoAt size d hd
  rw [hb] at e
  have e1 := congrArg Prod.snd e
  have e2 := congrArg Prod.fst e
  dsimp only at e1 e2
  subst e1
  refine ⟨hd2, ?_⟩
  split at e2
  case isFalse => cases e2
  rename_i hle
  cases e2
  obtain ⟨a, h1, h2, h3⟩ := hone.bytes cs img es hin
  have hdp : (Val.simple (.nonRes v)).dataPosition = some a := by
    rw [← h1, ← hp]; rfl
  refine ⟨a, h1, ?_, ?_⟩
  · rw [hp] at *
    exact SVal.dataPosition_pos (v := .nonRes v) hdp
  · have hf := IndexRecord.ofBytes_fixup hr
    refine Record.fixup_found hf hdp ?_ h2
    unfold part
    rw [h3]
    change ((content cs img es).take v.st.dataSize |>.drop v.st.streamPosition).take size = _
    rw [List.drop_take, List.take_take]
    change size ≤ ((content cs img es).take v.st.dataSize).length - v.st.streamPosition at hle
    rw [List.length_take] at hle
    by_cases hz : size = 0
    · subst hz; simp
    · congr 1; omega

/-- **C77**: an index record that is read by its VCN is found at its position, which is the address of the place of
the index allocation where the VCN points; provided that the record lies in one extent. -/
theorem C77_index_record (cs : Nat) (img data : Bytes) (es : List Extent) (p : Pos) (len : Nat)
    (h : StoredAs cs img data es) (hlen : len < U64) (v : NonRes) (hv : NonRes.new cs data p len = .ok v)
    (size : Nat) (vcn : Int) (hone : InOneExtent cs es (vcn * cs).toNat size) (d d' : Dev) (hd : d.Ok img)
    (r : IndexRecord) (hr : (IndexAllocation.mk cs (.simple (.nonRes v))).recordFromVcn size vcn d = (.ok r, d')) :
    d'.Ok img ∧ ∃ a, addressOf cs es (vcn * cs).toNat = some a ∧ 0 < a ∧ RecordFound img r.record a := by
  unfold IndexAllocation.recordFromVcn at hr
  dsimp only at hr
  unfold Vcn.offset checkedMulI64 at hr
  by_cases h1 : -(I63 : Int) ≤ vcn * cs ∧ vcn * cs < (I63 : Int)
  case neg => rw [if_neg h1] at hr; cases congrArg Prod.fst hr
  rw [if_pos h1, StM.bind_of_ok (StM.lift_apply _ _)] at hr
  obtain ⟨v0, g1, g2, g3, g4, g5, post, g6, g7⟩ := NonRes.new_good h p len hlen
  cases hv.symm.trans g1
  have hun : v.Untouched (es.map (runOf cs)) := ⟨g4, post, g6, g7, fun hr => g6.unique (NonRes.new_run_none hv hr)⟩
  have hsk := NonRes.seek_good img _ v g2 (.current (vcn * cs)) h1
  have hdp := NonRes.seek_dataPosition img h.imgLt _ v g2 (.current (vcn * cs)) h1
  have ht : seekTarget v.st.streamPosition v.st.dataSize (.current (vcn * cs)) = vcn * cs := by
    rw [g4]; simp [seekTarget]
  rw [ht] at hsk hdp
  by_cases hval : validTarget (vcn * cs)
  case neg =>
    rw [if_neg hval] at hsk
    rw [StM.bind_of_err (e := .io .invalidInput) (s' := d) (by
      unfold IndexAllocation.seekTo Val.seek SVal.seek
      dsimp only
      rw [hsk])] at hr
    cases congrArg Prod.fst hr
  rw [if_pos hval] at hsk
  obtain ⟨v', k1, k2, _, k3, k4⟩ := hsk
  have hdp := hdp hval (.inr hun)
  rw [k1] at hdp
  dsimp only at hdp
  rw [StM.bind_of_ok (a := .simple (.nonRes v')) (s' := d) (by
    unfold IndexAllocation.seekTo Val.seek SVal.seek
    dsimp only
    rw [k1])] at hr
  split at hr
  · cases congrArg Prod.fst hr
  rw [StM.bind_apply] at hr
  split at hr
  case h_2 => cases congrArg Prod.fst hr
  case h_3 => cases congrArg Prod.fst hr
  case h_4 => cases congrArg Prod.fst hr
  rename_i r1 d1 hnew
  rw [← k4] at hone ⊢
  have hnf := IndexRecord.new_found h.inImage h.imgLt k2 (by rw [hdp, addrAt_runOf, k4]) hone hd hnew
  rw [StM.bind_apply] at hr
  split at hr
  case h_2 => cases congrArg Prod.fst hr
  case h_3 => cases congrArg Prod.fst hr
  case h_4 => cases congrArg Prod.fst hr
  rename_i heq
  have := congrArg Prod.snd heq
  dsimp only [StM.lift] at this
  subst this
  split at hr
  · cases congrArg Prod.fst hr
  · cases hr
    exact hnf

/-- The number of records that were shown. -/
def Spec.recordsShown : List (Res (Option IndexRecord)) → Nat
  | [] => 0
  | .ok (some _) :: rest => recordsShown rest + 1
  | _ :: rest => recordsShown rest

/-- What the iteration over index records keeps: the value is intact, and its position is the address of the next byte. -/
structure Spec.AtAddress (cs : Nat) (img : Bytes) (es : List Extent) (v : NonRes) : Prop where
  good : v.Good img (es.map (runOf cs))
  here : v.st.streamPosition < v.st.dataSize → v.dataPosition = addressOf cs es v.st.streamPosition
  start : ∀ sk : SeekFrom, sk.InRange → ∀ t : Nat, seekTarget v.st.streamPosition v.st.dataSize sk = t →
    v.st.streamPosition < t → t < v.st.dataSize → (v.seek sk).2.dataPosition = addressOf cs es t

theorem Spec.AtAddress.of_good {cs : Nat} {img : Bytes} {es : List Extent} (himg : img.length < U64) {v : NonRes}
    (hg : v.Good img (es.map (runOf cs)))
    (h : v.st.streamPosition < v.st.dataSize → v.dataPosition = addressOf cs es v.st.streamPosition) :
    AtAddress cs img es v := by
  refine ⟨hg, h, fun sk hsk t ht hlt hlen => ?_⟩
  have := hg.sizeLt
  have := NonRes.seek_dataPosition img himg _ v hg sk hsk (by rw [ht]; simp only [validTarget]; omega)
    (.inl (by rw [ht, Int.toNat_natCast]; omega))
  rw [this, ht, Int.toNat_natCast, addrAt_runOf]

theorem IndexRecords.next_address {cs : Nat} {img : Bytes} {es : List Extent} (hin : InImage cs img es)
    (himg : img.length < U64) {v : NonRes} (hv : AtAddress cs img es v) (cl size : Nat) (h0 : 0 < size)
    (hsize : size < U32) (d : Dev) (hd : d.Ok img) :
    ∃ r v' d', IndexRecords.next (⟨⟨cl, .simple (.nonRes v)⟩, size⟩, d) =
        (r, (⟨⟨cl, .simple (.nonRes v')⟩, size⟩, d')) ∧ d'.Ok img ∧ AtAddress cs img es v' ∧
      ((∀ x, r ≠ .ok (some x)) → v' = v) ∧
      ∀ x, r = .ok (some x) → v'.st.streamPosition = v.st.streamPosition + size ∧
        (InOneExtent cs es v.st.streamPosition size →
          ∃ a, addressOf cs es v.st.streamPosition = some a ∧ 0 < a ∧ RecordFound img x.record a) := by
  have hh : (Val.simple (.nonRes v)).Has img ((content cs img es).take v.st.dataSize) :=
    ⟨himg, _, hv.good, by rw [restBytes_runOf]⟩
  obtain ⟨d1, e1, hd1⟩ := hh.readIntoAt size d hd
  unfold IndexRecords.next
  dsimp only
  by_cases hend : (Val.simple (.nonRes v)).streamPosition ≥ (Val.simple (.nonRes v)).len
  · rw [if_pos hend]
    exact ⟨_, v, d, rfl, hd, hv, fun _ => rfl, fun _ h => nomatch h⟩
  rw [if_neg hend]
  have hlt : v.st.streamPosition < v.st.dataSize := Nat.lt_of_not_le hend
  cases hnew : IndexRecord.new (.simple (.nonRes v)) size d with
  | mk res d2 =>
    have hd2 : d2 = d1 := by
      unfold IndexRecord.new at hnew
      rw [StM.bind_apply, e1] at hnew
      have := congrArg Prod.snd hnew
      split at this
      · dsimp only [StM.lift] at this; rw [← this]; rename_i heq; exact (congrArg Prod.snd heq).symm
      all_goals (dsimp only at this; rw [← this]; rename_i heq; exact (congrArg Prod.snd heq).symm)
    subst hd2
    cases res with
    | err x => exact ⟨_, v, d2, rfl, hd1, hv, fun _ => rfl, fun _ h => nomatch h⟩
    | panic x => exact ⟨_, v, d2, rfl, hd1, hv, fun _ => rfl, fun _ h => nomatch h⟩
    | diverge => exact ⟨_, v, d2, rfl, hd1, hv, fun _ => rfl, fun _ h => nomatch h⟩
    | ok x =>
      dsimp only
      have hir : (SeekFrom.current (size : Int)).InRange := by
        have : (size : Int) < (I63 : Int) := by omega
        exact ⟨by omega, this⟩
      have ht : seekTarget v.st.streamPosition v.st.dataSize (.current (size : Int)) =
          ((v.st.streamPosition + size : Nat) : Int) := by simp [seekTarget]
      have hread := IndexRecord.new_ok hnew
      obtain ⟨b, hb, _⟩ := hread
      have hle : size ≤ v.st.dataSize - v.st.streamPosition := by
        rw [hb] at e1
        have := congrArg Prod.fst e1
        dsimp only at this
        split at this
        · rename_i hle
          change size ≤ ((content cs img es).take v.st.dataSize).length - v.st.streamPosition at hle
          rw [List.length_take] at hle
          omega
        · cases this
      have hsz := hv.good.sizeLt
      obtain ⟨sk, hsk⟩ : ∃ sk, sk = SeekFrom.current (size : Int) := ⟨_, rfl⟩
      rw [← hsk] at hir ht ⊢
      have hs := NonRes.seek_good img _ v hv.good sk hir
      rw [ht, if_pos (by simp only [validTarget]; omega), Int.toNat_natCast] at hs
      obtain ⟨v', k1, k2, _, k3, k4⟩ := hs
      have hseek : (Val.simple (.nonRes v)).seek sk d2 =
          (.ok (v.st.streamPosition + size), .simple (.nonRes v'), d2) := by
        unfold Val.seek SVal.seek
        dsimp only
        rw [k1]
      rw [hseek]
      refine ⟨_, v', d2, rfl, hd1, ?_, fun h => absurd rfl (h x), fun y hy => ?_⟩
      · refine .of_good himg k2 fun hlt' => ?_
        have := hv.start sk hir _ ht (by omega) (by omega)
        rw [k1] at this
        rw [k4]
        exact this
      · cases hy
        exact ⟨k4, fun hone => (IndexRecord.new_found hin himg hv.good (hv.here hlt) hone hd hnew).2⟩

/-- **C77**: so are the records that an iteration over an index allocation shows: the `i`-th record that was shown is
found at its position, the address of the place `i * size` of the index allocation. -/
theorem C77_index_records (cs : Nat) (img data : Bytes) (es : List Extent) (p : Pos) (len : Nat)
    (h : StoredAs cs img data es) (hlen : len < U64) (v : NonRes) (hv : NonRes.new cs data p len = .ok v)
    (size : Nat) (h0 : 0 < size) (hsize : size < U32) (d : Dev) (hd : d.Ok img) (n i : Nat) (r : IndexRecord)
    (hr : (IndexRecords.calls n ((IndexAllocation.mk cs (.simple (.nonRes v))).records size, d))[i]? =
      some (.ok (some r)))
    (t : Nat) (ht : t = recordsShown
      (IndexRecords.calls i ((IndexAllocation.mk cs (.simple (.nonRes v))).records size, d)) * size)
    (hone : InOneExtent cs es t size) :
    ∃ a, addressOf cs es t = some a ∧ 0 < a ∧ RecordFound img r.record a := by
  obtain ⟨v0, g1, g2, g3, g4, g5, post, g6, g7⟩ := NonRes.new_good h p len hlen
  cases hv.symm.trans g1
  have hst : AtAddress cs img es v := by
    refine .of_good h.imgLt g2 fun _ => ?_
    obtain ⟨v1, v2, k1, k2, _⟩ := C39_fresh_seek cs img data es p len h hlen (.start 0) (by decide)
      (by simp [seekTarget, validTarget])
    cases hv.symm.trans k1
    rw [k2, g4]
  suffices ∀ n i (v : NonRes) (d : Dev), AtAddress cs img es v → d.Ok img →
      (IndexRecords.calls n (⟨⟨cs, .simple (.nonRes v)⟩, size⟩, d))[i]? = some (.ok (some r)) →
      InOneExtent cs es (v.st.streamPosition +
        recordsShown (IndexRecords.calls i (⟨⟨cs, .simple (.nonRes v)⟩, size⟩, d)) * size) size →
      ∃ a, addressOf cs es (v.st.streamPosition +
          recordsShown (IndexRecords.calls i (⟨⟨cs, .simple (.nonRes v)⟩, size⟩, d)) * size) = some a ∧
        0 < a ∧ RecordFound img r.record a by
    have := this n i v d hst hd hr
    rw [g4, Nat.zero_add] at this
    rw [ht] at hone ⊢
    exact this hone
  clear ht hone hr hst hd g1 g2 g3 g4 g5 g6 g7 hv
  clear v d
  intro n
  induction n with
  | zero => intro i v d _ _ hr; simp [IndexRecords.calls] at hr
  | succ n ih =>
    intro i v d hv hd hr hone
    obtain ⟨r1, v', d', e, hd', hv', hsame, hok⟩ := IndexRecords.next_address h.inImage h.imgLt hv cs size h0 hsize d hd
    rw [IndexRecords.calls, e] at hr
    dsimp only at hr
    cases i with
    | zero =>
      cases hr
      simp only [IndexRecords.calls, recordsShown, Nat.zero_mul, Nat.add_zero] at hone ⊢
      exact (hok r rfl).2 hone
    | succ i =>
      rw [List.getElem?_cons_succ] at hr
      have hc : IndexRecords.calls (i + 1) (⟨⟨cs, .simple (.nonRes v)⟩, size⟩, d) =
          r1 :: IndexRecords.calls i (⟨⟨cs, .simple (.nonRes v')⟩, size⟩, d') := by
        rw [IndexRecords.calls, e]
      have key := ih i v' d' hv' hd' hr
      rw [hc] at hone ⊢
      by_cases hx : ∃ x, r1 = .ok (some x)
      · obtain ⟨x, rfl⟩ := hx
        have hp := (hok x rfl).1
        have hsum : v.st.streamPosition + recordsShown (.ok (some x) ::
            IndexRecords.calls i (⟨⟨cs, .simple (.nonRes v')⟩, size⟩, d')) * size =
            v'.st.streamPosition + recordsShown (IndexRecords.calls i (⟨⟨cs, .simple (.nonRes v')⟩, size⟩, d')) * size := by
          simp only [recordsShown, Nat.add_mul, hp]
          omega
        rw [hsum] at hone ⊢
        exact key hone
      · have hvv : v' = v := hsame fun x hx' => hx ⟨x, hx'⟩
        have hs : recordsShown (r1 :: IndexRecords.calls i (⟨⟨cs, .simple (.nonRes v')⟩, size⟩, d')) =
            recordsShown (IndexRecords.calls i (⟨⟨cs, .simple (.nonRes v')⟩, size⟩, d')) := by
          cases r1 with
          | ok o =>
            cases o with
            | none => rfl
            | some x => exact absurd ⟨x, rfl⟩ hx
          | err _ => rfl
          | panic _ => rfl
          | diverge => rfl
        rw [hs] at hone ⊢
        rw [hvv] at key hone ⊢
        exact key hone

/-- **C77**: the entries of an index record that is found at its position start at an address, and so (with
`C77_node_entries`) all of its entries are found at their positions. -/
theorem C77_record_entries (img : Bytes) (himg : img.length < U64) (r : IndexRecord) (a : Nat) (h0 : 0 < a)
    (hr : RecordFound img r.record a) (it : NodeEntries) (h : r.entries = .ok it) :
    it.position = some (a + (24 + field r.record.data 24 4)) ∧
      FoundAt img a (a + (24 + field r.record.data 24 4)) it.slice := by
  obtain ⟨hp, hf⟩ := hr
  unfold IndexRecord.entries IndexRecord.entriesRange at h
  rw [Res.bind_eq_ok] at h
  obtain ⟨⟨x, y, z⟩, hx, h⟩ := h
  rw [Res.bind_eq_ok] at hx
  obtain ⟨o, ho, hx⟩ := hx
  rw [Res.bind_eq_ok] at hx
  obtain ⟨u, hu, hx⟩ := hx
  cases hx
  cases readLE_eq_ok ho
  cases readLE_eq_ok hu
  dsimp only at h
  rw [Res.bind_eq_ok] at h
  obtain ⟨sl, hs, h⟩ := h
  cases h
  unfold idxRange at hs
  have hin := hf.inside
  cases hg : getRange r.record.data (24 + field r.record.data 24 4) (24 + field r.record.data 28 4) with
  | none => rw [hg] at hs; cases hs
  | some x =>
    rw [hg] at hs
    cases hs
    obtain ⟨g1, g2, g3⟩ := getRange_isSome_iff.1 hg
    refine ⟨?_, ?_⟩
    · dsimp only
      rw [hp, Pos.add_some (by omega) (by omega)]
    · have := hf.sub (24 + field r.record.data 24 4)
        (24 + field r.record.data 28 4 - (24 + field r.record.data 24 4)) (by omega)
      unfold part at this
      rw [← g3] at this
      exact this

/-! ### The entries of a whole index -/

/-- The entry is found at its position, or `s` bytes after it. -/
def Spec.EntryFound (img : Bytes) (s : Nat) (e : IEntry) : Prop :=
  ∃ base q t, (t = 0 ∨ t = s) ∧ e.position = some q ∧ FoundAt img base (q + t) e.slice

/-- The entries of the node that are still to come are found at the position of the iterator, or `s` bytes after it. -/
def Spec.RangesFound (img : Bytes) (s : Nat) (it : NodeRanges) : Prop :=
  it.stop ≤ it.data.length ∧ (it.start < it.stop → ∃ base q t, (t = 0 ∨ t = s) ∧ 0 < q ∧ it.position = some q ∧
    FoundAt img base (q + t) (it.data.drop it.start))

/-- The range of an entry of a node leads to an entry that is found at its position, or `s` bytes after it. -/
def Spec.RangeFound (img : Bytes) (s : Nat) (data : Bytes) (r : EntryRange) : Prop :=
  ∀ e, r.toEntry data = .ok e → EntryFound img s e

theorem NodeRanges.next_found {img : Bytes} (himg : img.length < U64) {s : Nat} {it it' : NodeRanges}
    {r : Res (Option EntryRange)} (h : RangesFound img s it) (hn : it.next = (r, it')) :
    RangesFound img s it' ∧ it'.data = it.data ∧ r.Reports (· = it.position) ∧
      ∀ x, r = .ok (some x) → RangeFound img s it.data x := by
  rw [NodeRanges.next_eq it h.1] at hn
  by_cases h0 : it.stop ≤ it.start
  · rw [if_pos h0] at hn; cases hn
    exact ⟨h, rfl, .ok _, fun _ h => nomatch h⟩
  rw [if_neg h0] at hn
  by_cases h1 : it.data.length < it.start + 16
  · rw [if_pos h1] at hn; cases hn
    exact ⟨h, rfl, .err fun _ h => reported_self h, fun _ h => nomatch h⟩
  rw [if_neg h1] at hn
  by_cases h2 : it.data.length < it.start + field it.data (it.start + 8) 2
  · rw [if_pos h2] at hn; cases hn
    exact ⟨h, rfl, .err fun _ h => reported_self h, fun _ h => nomatch h⟩
  rw [if_neg h2] at hn
  by_cases h3 : field it.data (it.start + 8) 2 < 10
  · rw [if_pos h3] at hn; cases hn
    exact ⟨h, rfl, .panic _, fun _ h => nomatch h⟩
  rw [if_neg h3] at hn
  by_cases h4 : field it.data (it.start + 8) 2 < 13
  · rw [if_pos h4] at hn; cases hn
    exact ⟨h, rfl, .panic _, fun _ h => nomatch h⟩
  rw [if_neg h4] at hn
  obtain ⟨base, q, t, ht, hq, hp, hf⟩ := h.2 (by omega)
  have hin := hf.inside
  rw [List.length_drop] at hin
  have hr := congrArg Prod.fst hn
  have hit := congrArg Prod.snd hn
  dsimp only at hr hit
  subst hr
  have hdata : it'.data = it.data := by rw [← hit]; split <;> rfl
  refine ⟨?_, hdata, .ok _, fun x hx e he => ?_⟩
  · rw [← hit]
    split
    · refine ⟨h.1, fun hlt => ?_⟩
      have := h.1
      dsimp only at hlt
      omega
    · refine ⟨h.1, fun hlt => ⟨base, q + field it.data (it.start + 8) 2, t, ht, by omega, ?_, ?_⟩⟩
      · dsimp only
        rw [hp, Pos.add_some (by omega) (by omega)]
      · have := hf.sub (field it.data (it.start + 8) 2) (it.data.length - it.start - field it.data (it.start + 8) 2)
          (by rw [List.length_drop]; omega)
        unfold part at this
        rw [List.take_of_length_le (by simp; omega), List.drop_drop] at this
        dsimp only
        rwa [show q + field it.data (it.start + 8) 2 + t = q + t + field it.data (it.start + 8) 2 by omega]
  · cases hx
    unfold EntryRange.toEntry at he
    dsimp only at he
    rw [idxRange_ok (by omega) (by omega), Res.bind_ok, IEntry.new_eq] at he
    split at he
    · cases he
    split at he
    · cases he
    rename_i hh1 hh2
    cases he
    refine ⟨base, q, t, ht, hp, ?_⟩
    dsimp only
    rw [Nat.add_sub_cancel_left] at hh2 ⊢
    have := (hf.sub 0 (field it.data (it.start + 8) 2) (by rw [List.length_drop]; omega)).sub 0
      (field ((it.data.drop it.start).take (field it.data (it.start + 8) 2)) 8 2)
      (by unfold part; rw [List.drop_zero]; omega)
    unfold part at this
    rw [List.drop_zero, List.drop_zero] at this
    exact this

/-- The stacks of the iterator over an index. -/
inductive Spec.StackFound (img : Bytes) (s : Nat) : List NodeRanges → List (Option EntryRange) → Prop
  | empty : StackFound img s [] []
  | one {top : NodeRanges} : RangesFound img s top → StackFound img s [top] []
  | push {top next : NodeRanges} {below : List NodeRanges} {f : Option EntryRange} {fs : List (Option EntryRange)} :
      RangesFound img s top → (∀ r, f = some r → RangeFound img s next.data r) →
      StackFound img s (next :: below) fs → StackFound img s (top :: next :: below) (f :: fs)

theorem Spec.StackFound.top {img : Bytes} {s : Nat} {top : NodeRanges} {below : List NodeRanges}
    {fs : List (Option EntryRange)} (h : StackFound img s (top :: below) fs) : RangesFound img s top := by
  cases h <;> assumption

theorem Spec.StackFound.replace {img : Bytes} {s : Nat} {top top' : NodeRanges} {below : List NodeRanges}
    {fs : List (Option EntryRange)} (h : StackFound img s (top :: below) fs) (h' : RangesFound img s top') :
    StackFound img s (top' :: below) fs := by
  cases h with
  | one _ => exact .one h'
  | push _ h2 h3 => exact .push h' h2 h3

/-- Every node that the index refers to lies, as far as it can be read, at its position. -/
def Spec.SubnodesFound (img : Bytes) (ix : Index) : Prop :=
  ∀ (vcn : Int) (d : Dev) (sub : NodeRanges) (d' : Dev), d.Ok img → ix.subnode vcn d = (.ok sub, d') → RangesFound img 0 sub

theorem Spec.RangesFound.weaken {img : Bytes} {s : Nat} {it : NodeRanges} (h : RangesFound img 0 it) :
    RangesFound img s it :=
  ⟨h.1, fun hlt => by
    obtain ⟨base, q, t, ht, h2⟩ := h.2 hlt
    exact ⟨base, q, t, .inl (by omega), h2⟩⟩

theorem Dev.Later.ok {img : Bytes} {d d' : Dev} (h : d.Later d') (hd : d.Ok img) : d'.Ok img :=
  ⟨h.img.trans hd.1, fun r hr => hd.2 r (h.sched.subset hr)⟩

theorem IndexEntries.loop_found {img : Bytes} (himg : img.length < U64) {s : Nat} {ix : Index}
    (hsub : SubnodesFound img ix) (fuel : Nat) (it : IndexEntries) (d : Dev) (hd : d.Ok img)
    (h : StackFound img s it.inner it.following) (r : Res (Option EntryRange)) (it' : IndexEntries) (d' : Dev)
    (hl : IndexEntries.loop ix fuel (it, d) = (r, (it', d'))) :
    d'.Ok img ∧ StackFound img s it'.inner it'.following ∧
      ∀ x, r = .ok (some x) → ∀ e, IndexEntries.entryOf x it' = .ok e → EntryFound img s e := by
  induction fuel generalizing it d with
  | zero =>
    cases hl
    exact ⟨hd, h, fun _ h => nomatch h⟩
  | succ fuel ih =>
    obtain ⟨inner, following⟩ := it
    simp only [IndexEntries.loop] at hl
    cases inner with
    | nil =>
      cases hl
      exact ⟨hd, h, fun _ h => nomatch h⟩
    | cons top below =>
      dsimp only at hl h
      cases hn : top.next with
      | mk res top' =>
        obtain ⟨k1, k2, _, k4⟩ := NodeRanges.next_found himg h.top hn
        have hrep := h.replace k1
        rw [hn] at hl
        cases res with
        | err x => cases hl; exact ⟨hd, hrep, fun _ h => nomatch h⟩
        | panic x => cases hl; exact ⟨hd, hrep, fun _ h => nomatch h⟩
        | diverge => cases hl; exact ⟨hd, hrep, fun _ h => nomatch h⟩
        | ok o =>
          cases o with
          | none =>
            dsimp only at hl
            cases h with
            | one h1 => cases hl; exact ⟨hd, .empty, fun _ h => nomatch h⟩
            | push h1 h2 h3 =>
              rename_i next bs f fs
              cases f with
              | none => exact ih ⟨next :: bs, fs⟩ d hd h3 hl
              | some x =>
                cases hl
                refine ⟨hd, h3, fun y hy e he => ?_⟩
                cases hy
                exact h2 x rfl e he
          | some x =>
            have hx := k4 x rfl
            dsimp only at hl
            cases hi : IndexEntries.inspect x top'.data with
            | err y => rw [hi] at hl; cases hl; exact ⟨hd, hrep, fun _ h => nomatch h⟩
            | panic y => rw [hi] at hl; cases hl; exact ⟨hd, hrep, fun _ h => nomatch h⟩
            | diverge => rw [hi] at hl; cases hl; exact ⟨hd, hrep, fun _ h => nomatch h⟩
            | ok y =>
              obtain ⟨last, o⟩ := y
              rw [hi] at hl
              cases o with
              | none =>
                dsimp only at hl
                split at hl
                · exact ih _ d hd hrep hl
                · cases hl
                  refine ⟨hd, hrep, fun y hy e he => ?_⟩
                  cases hy
                  unfold IndexEntries.entryOf at he
                  dsimp only at he
                  rw [k2] at he
                  exact hx e he
              | some vcn =>
                dsimp only at hl
                have hlat := (Index.subnode_rep ix vcn).later hd.calm
                cases hs : ix.subnode vcn d with
                | mk res2 d2 =>
                  rw [hs] at hl hlat
                  have hd2 := hlat.ok hd
                  cases res2 with
                  | err y => cases hl; exact ⟨hd2, hrep, fun _ h => nomatch h⟩
                  | panic y => cases hl; exact ⟨hd2, hrep, fun _ h => nomatch h⟩
                  | diverge => cases hl; exact ⟨hd2, hrep, fun _ h => nomatch h⟩
                  | ok sub =>
                    dsimp only at hl
                    refine ih _ d2 hd2 (.push (hsub vcn d sub d2 hd hs).weaken (fun y hy => ?_) hrep) hl
                    split at hy
                    · cases hy
                    · cases hy
                      rw [k2]
                      exact hx

/-- **C77**: whatever entry an iteration over an index shows, it is found at its position, except that an entry of the
index root is found `s` bytes after it. -/
theorem C77_index_entries_partial (img : Bytes) (himg : img.length < U64) (s : Nat) (ix : Index)
    (hroot : RangesFound img s ix.rootRanges) (hsub : SubnodesFound img ix) (d : Dev) (hd : d.Ok img)
    (fuel k i : Nat) (e : IEntry)
    (h : (IndexEntries.calls ix fuel k (IndexEntries.new ix, d))[i]? = some (.ok (some e))) : EntryFound img s e := by
  have key : ∀ (k i : Nat) (it : IndexEntries) (d : Dev), d.Ok img → StackFound img s it.inner it.following →
      (IndexEntries.calls ix fuel k (it, d))[i]? = some (.ok (some e)) → EntryFound img s e := by
    intro k
    induction k with
    | zero => intro i it d _ _ h; simp [IndexEntries.calls] at h
    | succ k ih =>
      intro i it d hd hst h
      unfold IndexEntries.calls IndexEntries.next at h
      cases hl : IndexEntries.loop ix fuel (it, d) with
      | mk res st =>
        obtain ⟨it', d'⟩ := st
        obtain ⟨h1, h2, h3⟩ := IndexEntries.loop_found himg hsub fuel it d hd hst _ _ _ hl
        rw [hl] at h
        have hrest : ∀ (i : Nat) (r : Res (Option IEntry)), (r :: IndexEntries.calls ix fuel k (it', d'))[i]? = some (.ok (some e)) →
            (r = .ok (some e) → EntryFound img s e) → EntryFound img s e := by
          intro i r hi hr
          cases i with
          | zero => exact hr (Option.some.inj hi)
          | succ i => exact ih i it' d' h1 h2 hi
        cases res with
        | err x => exact hrest i _ h fun h => nomatch h
        | panic x => exact hrest i _ h fun h => nomatch h
        | diverge => exact hrest i _ h fun h => nomatch h
        | ok o =>
          cases o with
          | none => exact hrest i _ h fun h => nomatch h
          | some x =>
            dsimp only at h
            cases he : IndexEntries.entryOf x it' with
            | ok y =>
              rw [he] at h
              refine hrest i _ h fun hy => ?_
              cases hy
              exact h3 x rfl e he
            | err y => rw [he] at h; exact hrest i _ h fun h => nomatch h
            | panic y => rw [he] at h; exact hrest i _ h fun h => nomatch h
            | diverge => rw [he] at h; exact hrest i _ h fun h => nomatch h
  exact key k i _ d hd (.one hroot) h

/-- **C77**: the same for an entry that a search finds. -/
theorem C77_find_partial {κ : Type} (key : Bytes → Pos → Res κ) (cmp : κ → Res Ordering) (img : Bytes)
    (himg : img.length < U64) (s : Nat) (ix : Index) (hroot : RangesFound img s ix.rootRanges)
    (hsub : SubnodesFound img ix) (d d' : Dev) (hd : d.Ok img) (fuel : Nat) (e : IEntry)
    (h : ix.find key cmp fuel d = (.ok (some e), d')) : EntryFound img s e := by
  unfold Index.find at h
  revert h
  generalize ix.rootRanges = it at hroot
  induction fuel generalizing it d with
  | zero => intro h; cases congrArg Prod.fst h
  | succ fuel ih =>
    intro h
    simp only [Index.findLoop] at h
    cases hn : it.next with
    | mk res it' =>
      obtain ⟨k1, k2, _, k4⟩ := NodeRanges.next_found himg hroot hn
      rw [hn] at h
      cases res with
      | err x => cases congrArg Prod.fst h
      | panic x => cases congrArg Prod.fst h
      | diverge => cases congrArg Prod.fst h
      | ok o =>
        cases o with
        | none => cases congrArg Prod.fst h
        | some x =>
          have hx := k4 x rfl
          rw [← k2] at hx
          dsimp only at h
          cases he : x.toEntry it'.data with
          | err y => rw [he] at h; cases congrArg Prod.fst h
          | panic y => rw [he] at h; cases congrArg Prod.fst h
          | diverge => rw [he] at h; cases congrArg Prod.fst h
          | ok y =>
            rw [he] at h
            dsimp only at h
            cases hj : Index.judge key cmp y with
            | err z => rw [hj] at h; cases congrArg Prod.fst h
            | panic z => rw [hj] at h; cases congrArg Prod.fst h
            | diverge => rw [hj] at h; cases congrArg Prod.fst h
            | ok o =>
              rw [hj] at h
              match o with
              | some true => cases h; exact hx _ he
              | some false => exact ih d hd it' k1 h
              | none =>
                dsimp only at h
                cases hv : y.subnodeVcn with
                | err z => rw [hv] at h; cases congrArg Prod.fst h
                | panic z => rw [hv] at h; cases congrArg Prod.fst h
                | diverge => rw [hv] at h; cases congrArg Prod.fst h
                | ok o =>
                  rw [hv] at h
                  cases o with
                  | none => cases congrArg Prod.fst h
                  | some vcn =>
                    dsimp only at h
                    have hlat := (Index.subnode_rep ix vcn).later hd.calm
                    cases hs : ix.subnode vcn d with
                    | mk res2 d2 =>
                      rw [hs] at h hlat
                      cases res2 with
                      | err y => cases congrArg Prod.fst h
                      | panic y => cases congrArg Prod.fst h
                      | diverge => cases congrArg Prod.fst h
                      | ok sub => exact ih d2 (hlat.ok hd) sub (hsub vcn d sub d2 hd hs).weaken h

theorem IndexRecord.intoEntryRanges_found {img : Bytes} (himg : img.length < U64) {r : IndexRecord} {a : Nat}
    (h0 : 0 < a) (hr : RecordFound img r.record a) {it : NodeRanges} (h : r.intoEntryRanges = .ok it) :
    RangesFound img 0 it := by
  obtain ⟨hp, hf⟩ := hr
  unfold IndexRecord.intoEntryRanges IndexRecord.entriesRange at h
  rw [Res.bind_eq_ok] at h
  obtain ⟨⟨x, y, z⟩, hx, h⟩ := h
  rw [Res.bind_eq_ok] at hx
  obtain ⟨o, ho, hx⟩ := hx
  rw [Res.bind_eq_ok] at hx
  obtain ⟨u, hu, hx⟩ := hx
  cases hx
  dsimp only at h
  unfold NodeRanges.new at h
  split at h
  case isFalse => cases h
  rename_i hstop
  cases h
  refine ⟨hstop, fun hlt => ⟨a, a + (24 + o), 0, .inl rfl, by omega, ?_, ?_⟩⟩
  · have := hf.inside
    dsimp only at hlt ⊢
    rw [hp, Pos.add_some (by omega) (by omega)]
  · dsimp only at hlt ⊢
    have := hf.sub (24 + o) (r.record.data.length - (24 + o)) (by omega)
    unfold part at this
    rwa [List.take_of_length_le (by simp)] at this

/-- The nodes of an index whose allocation is an attribute of one file record, stored in the extents `es`, lie at their
positions, if each of them lies in one extent. -/
theorem C77_subnodes (img : Bytes) (ix : Index) (item : AttrItem) (a : Attr) (hi : ix.allocationItem = some item)
    (ha : item.toAttribute = .ok a) (hl : a.list = none) (b : Bytes) (p0 : Pos)
    (hb : a.nonResidentValueDataAndPosition = .ok (b, p0)) (es : List Extent)
    (h : StoredAs a.file.ntfs.clusterSize img b es)
    (hone : ∀ (vcn : Int) (d : Dev) (sub : NodeRanges) (d' : Dev), d.Ok img → ix.subnode vcn d = (.ok sub, d') →
      InOneExtent a.file.ntfs.clusterSize es (vcn * a.file.ntfs.clusterSize).toNat ix.recordSize) :
    SubnodesFound img ix := by
  intro vcn d sub d' hd hs
  have hone := hone vcn d sub d' hd hs
  unfold Index.subnode at hs
  have hit : (StM.lift (Res.ofOption (.missingIndexAllocation ix.rootPosition) (some item)) : StM Dev AttrItem) d =
      (.ok item, d) := rfl
  rw [hi, StM.bind_of_ok hit, ha, StM.bind_of_ok (StM.lift_apply _ _)] at hs
  rw [StM.bind_ok_iff] at hs
  obtain ⟨al, d1, e1, hs⟩ := hs
  rw [StM.bind_ok_iff] at hs
  obtain ⟨r, d2, e2, hs⟩ := hs
  unfold Attr.indexAllocation at e1
  rw [StM.bind_ok_iff] at e1
  obtain ⟨_, d3, e3, e1⟩ := e1
  rw [StM.bind_ok_iff] at e1
  obtain ⟨v, d4, e4, e1⟩ := e1
  have hd3 := congrArg Prod.snd e3
  dsimp only [StM.lift] at hd3
  subst hd3
  unfold Attr.value at e4
  rw [hl] at e4
  dsimp only at e4
  rw [StM.bind_ok_iff] at e4
  obtain ⟨sv, d5, e5, e4⟩ := e4
  have hd5 := congrArg Prod.snd e5
  have hv5 := congrArg Prod.fst e5
  dsimp only [StM.lift] at hd5 hv5
  subst hd5
  cases e4
  have hd1 := congrArg Prod.snd e1
  have hv1 := congrArg Prod.fst e1
  dsimp only [StM.lift] at hd1 hv1
  subst hd1
  unfold Attr.simpleValue at hv5
  rw [Res.bind_eq_ok] at hv5
  obtain ⟨res, hres, hv5⟩ := hv5
  cases res with
  | true =>
    rw [if_pos rfl, Res.bind_eq_ok] at hv5
    obtain ⟨w, _, hw⟩ := hv5
    cases hw
    cases hv1
  | false =>
    rw [if_neg (by decide), Res.bind_eq_ok] at hv5
    obtain ⟨w, hw, hw2⟩ := hv5
    cases hw2
    cases hv1
    unfold Attr.nonResidentValue at hw
    rw [hb, Res.bind_ok] at hw
    dsimp only at hw
    rw [Res.bind_eq_ok] at hw
    obtain ⟨size, hsize, hw⟩ := hw
    have hlt : size < U64 := by
      unfold Attr.nonResidentValueDataSize at hsize
      rw [Res.bind_eq_ok] at hsize
      obtain ⟨_, _, hsize⟩ := hsize
      have := readLE_lt hsize
      simpa using this
    have hcs : w.clusterSize = a.file.ntfs.clusterSize := by
      unfold NonRes.new at hw
      simp only [NonRes.nextDataRun] at hw
      split at hw
      · rename_i heq
        split at heq
        all_goals (cases heq; try (cases hw; rfl))
      all_goals cases hw
    rw [hcs] at e2
    obtain ⟨_, x, _, h0, hf⟩ := C77_index_record _ img b es p0 size h hlt w hw ix.recordSize vcn hone _ _ hd r e2
    have := congrArg Prod.fst hs
    exact IndexRecord.intoEntryRanges_found h.imgLt h0 hf this

end NT
