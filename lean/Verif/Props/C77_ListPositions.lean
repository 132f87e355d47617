import Verif.Props.C77_IndexPositions
import Verif.Props.C24_ListEntries

/-! C77 for the entries of attribute lists, for index roots and for the errors of records. -/

namespace NT

open Spec

/-! ### Attribute lists -/

/-- The number of bytes of the entries that were shown. -/
def Spec.listShown : List (Res (Option ListEntry)) → Nat
  | [] => 0
  | .ok (some e) :: rest => e.length + listShown rest
  | _ :: rest => listShown rest

theorem Spec.listShown_skip {r : Res (Option ListEntry)} (h : ∀ e, r ≠ .ok (some e))
    (rest : List (Res (Option ListEntry))) : listShown (r :: rest) = listShown rest := by
  cases r with
  | ok o =>
    cases o with
    | none => rfl
    | some e => exact absurd rfl (h e)
  | err _ => rfl
  | panic _ => rfl
  | diverge => rfl

theorem entryRes_ok {b : Bytes} {p : Pos} {e : ListEntry} (h : entryRes b p = .ok e) :
    e = entryAt b p ∧ 26 + field b 6 1 * 2 ≤ b.length ∧ 26 + field b 6 1 * 2 ≤ e.length ∧ e.length < U16 := by
  unfold entryRes at h
  split at h
  · cases h
  split at h
  · cases h
  split at h
  · cases h
  cases h
  refine ⟨rfl, by omega, ?_, ?_⟩
  · show _ ≤ field b 4 2; omega
  · exact field_lt (d := b) (a := 4) (n := 2) (by omega)

theorem entryRes_reports (b : Bytes) (p : Pos) : (entryRes b p).Reports (· = p) := by
  unfold entryRes; reports

theorem AttrList.nextNonResident_address {cs : Nat} {img : Bytes} {es : List Extent} (himg : img.length < U64)
    {v : NonRes} (hv : AtAddress cs img es v) (hsz : v.st.dataSize + U16 ≤ U64) (d : Dev) (hd : d.Ok img) :
    ∃ r v' d', AttrList.nextNonResident v d = (r, v', d') ∧ d'.Ok img ∧ AtAddress cs img es v' ∧
      v'.st.dataSize = v.st.dataSize ∧ ((∀ e, r ≠ .ok (some e)) → v' = v) ∧
      r.Reports (· = addressOf cs es v.st.streamPosition) ∧
      ∀ e, r = .ok (some e) → v'.st.streamPosition = v.st.streamPosition + e.length ∧
        e = entryAt (((content cs img es).take v.st.dataSize).drop v.st.streamPosition)
          (addressOf cs es v.st.streamPosition) ∧
        26 + 2 * e.nameUnits ≤ (((content cs img es).take v.st.dataSize).drop v.st.streamPosition).length := by
  unfold AttrList.nextNonResident
  by_cases hend : v.streamPosition ≥ v.len
  · rw [if_pos hend]
    exact ⟨_, v, d, rfl, hd, hv, rfl, fun _ => rfl, .ok _, fun _ h => nomatch h⟩
  rw [if_neg hend]
  have hlt : v.st.streamPosition < v.st.dataSize := Nat.lt_of_not_le hend
  obtain ⟨s', hs', he⟩ := ListEntry.new_eq (nonRes_exactLike img (es.map (runOf cs)) v.st.dataSize himg)
    v.dataPosition (v, d) ⟨hv.good, hd.2, hd.1, rfl⟩
  obtain ⟨v1, d1⟩ := s'
  dsimp only at he
  rw [restBytes_runOf, hv.here hlt] at he
  have hrep := entryRes_reports (((content cs img es).take v.st.dataSize).drop v.st.streamPosition)
    (addressOf cs es v.st.streamPosition)
  have hd1 : d1.Ok img := ⟨hs'.2.2.1, hs'.2.1⟩
  rw [hv.here hlt]
  rw [he]
  cases hx : entryRes (((content cs img es).take v.st.dataSize).drop v.st.streamPosition)
      (addressOf cs es v.st.streamPosition) with
  | err x =>
    rw [hx] at hrep
    exact ⟨_, v, d1, rfl, hd1, hv, rfl, fun _ => rfl, fun e q h => by cases h; exact hrep _ _ rfl, fun _ h => nomatch h⟩
  | panic x => exact ⟨_, v, d1, rfl, hd1, hv, rfl, fun _ => rfl, .panic _, fun _ h => nomatch h⟩
  | diverge => exact ⟨_, v, d1, rfl, hd1, hv, rfl, fun _ => rfl, (fun _ _ h => nomatch h), fun _ h => nomatch h⟩
  | ok e =>
    obtain ⟨k1, k2, k3, k4⟩ := entryRes_ok hx
    have hir : (SeekFrom.current (e.length : Int)).InRange := by
      have : (e.length : Int) < (I63 : Int) := by omega
      exact ⟨by omega, this⟩
    have ht : seekTarget v.st.streamPosition v.st.dataSize (.current (e.length : Int)) =
        ((v.st.streamPosition + e.length : Nat) : Int) := by simp [seekTarget]
    obtain ⟨sk, hsk⟩ : ∃ sk, sk = SeekFrom.current (e.length : Int) := ⟨_, rfl⟩
    dsimp only
    rw [← hsk] at hir ht ⊢
    have hs := NonRes.seek_good img _ v hv.good sk hir
    rw [ht, if_pos (by simp only [validTarget]; omega), Int.toNat_natCast] at hs
    obtain ⟨v', g1, g2, _, g3, g4⟩ := hs
    rw [g1]
    refine ⟨_, v', d1, rfl, hd1, ?_, g3, fun h => absurd rfl (h e), .ok _, fun e' he' => ?_⟩
    · refine .of_good himg g2 fun hlt' => ?_
      have := hv.start sk hir _ ht (by omega) (by omega)
      rw [g1] at this
      rw [g4]
      exact this
    · cases he'
      have hn : e.nameUnits = field (((content cs img es).take v.st.dataSize).drop v.st.streamPosition) 6 1 := by
        rw [k1]; rfl
      exact ⟨g4, k1, by rw [hn]; omega⟩

/-- **C77**: the entries of an attribute list that is stored in clusters. The position of each entry is the device
address of the place of the list where the entries before it end, and the entry is decoded from the bytes of the list
that start there; an error reports the same position. -/
theorem C77_list_non_resident (cs : Nat) (img data : Bytes) (es : List Extent) (p : Pos) (len : Nat)
    (h : StoredAs cs img data es) (hlen : len + U16 ≤ U64) (v : NonRes) (hv : NonRes.new cs data p len = .ok v)
    (d : Dev) (hd : d.Ok img) (n i : Nat) (r : Res (Option ListEntry))
    (hr : (AttrList.calls n (.nonResident v, d))[i]? = some r) (t : Nat)
    (ht : t = listShown (AttrList.calls i (.nonResident v, d))) :
    r.Reports (· = addressOf cs es t) ∧
      ∀ e, r = .ok (some e) → e.position = addressOf cs es t ∧
        e = entryAt (((content cs img es).take len).drop t) (addressOf cs es t) ∧
        26 + 2 * e.nameUnits ≤ (((content cs img es).take len).drop t).length := by
  obtain ⟨v0, g1, g2, g3, g4, g5, post, g6, g7⟩ := NonRes.new_good h p len (by omega)
  cases hv.symm.trans g1
  have hst : AtAddress cs img es v := by
    refine .of_good h.imgLt g2 fun _ => ?_
    obtain ⟨v1, v2, k1, k2, _⟩ := C39_fresh_seek cs img data es p len h (by omega) (.start 0) (by decide)
      (by simp [seekTarget, validTarget])
    cases hv.symm.trans k1
    rw [k2, g4]
  suffices ∀ (n i : Nat) (v : NonRes) (d : Dev), AtAddress cs img es v → v.st.dataSize = len → d.Ok img →
      (AttrList.calls n (.nonResident v, d))[i]? = some r →
      r.Reports (· = addressOf cs es (v.st.streamPosition + listShown (AttrList.calls i (.nonResident v, d)))) ∧
      ∀ e, r = .ok (some e) →
        e = entryAt (((content cs img es).take len).drop
            (v.st.streamPosition + listShown (AttrList.calls i (.nonResident v, d))))
          (addressOf cs es (v.st.streamPosition + listShown (AttrList.calls i (.nonResident v, d)))) ∧
        26 + 2 * e.nameUnits ≤ (((content cs img es).take len).drop
            (v.st.streamPosition + listShown (AttrList.calls i (.nonResident v, d)))).length by
    have := this n i v d hst g3 hd hr
    rw [g4, Nat.zero_add, ← ht] at this
    refine ⟨this.1, fun e he => ⟨?_, this.2 e he⟩⟩
    rw [(this.2 e he).1]
    rfl
  clear ht hr hst hd g1 g2 g3 g4 g5 g6 g7 hv
  clear v d
  intro n
  induction n with
  | zero => intro i v d _ _ _ hr; simp [AttrList.calls] at hr
  | succ n ih =>
    intro i v d hv hsz hd hr
    obtain ⟨r1, v', d', e1, hd', hv', hsz', hsame, hrep, hok⟩ :=
      AttrList.nextNonResident_address h.imgLt hv (by omega) d hd
    have hnext : AttrList.next (.nonResident v, d) = (r1, (.nonResident v', d')) := by
      unfold AttrList.next
      dsimp only
      rw [e1]
    rw [AttrList.calls, hnext] at hr
    dsimp only at hr
    cases i with
    | zero =>
      cases hr
      simp only [AttrList.calls, listShown, Nat.add_zero]
      refine ⟨hrep, fun e he => ?_⟩
      rw [← hsz]
      exact (hok e he).2
    | succ i =>
      rw [List.getElem?_cons_succ] at hr
      have hc : AttrList.calls (i + 1) (.nonResident v, d) = r1 :: AttrList.calls i (.nonResident v', d') := by
        rw [AttrList.calls, hnext]
      have key := ih i v' d' hv' (hsz'.trans hsz) hd' hr
      rw [hc]
      by_cases hx : ∃ x, r1 = .ok (some x)
      · obtain ⟨x, rfl⟩ := hx
        have hp := (hok x rfl).1
        rw [hp, Nat.add_assoc] at key
        exact key
      · rw [listShown_skip (fun e he => hx ⟨e, he⟩)]
        rw [hsame fun e he => hx ⟨e, he⟩] at key ⊢
        exact key

/-- Where the bytes of the entry lie in one extent, they are found on the device at the position of the entry. -/
theorem C77_list_entry_bytes (cs : Nat) (img : Bytes) (es : List Extent) (hin : InImage cs img es) (t n : Nat)
    (h : InOneExtent cs es t n) :
    ∃ a, addressOf cs es t = some a ∧ FoundAt img a a (part (content cs img es) t n) := by
  obtain ⟨a, h1, h2, h3⟩ := h.bytes cs img es hin
  refine ⟨a, h1, Nat.le_refl _, ?_, fun i hi _ => ?_⟩
  · unfold part
    rw [← h3, List.length_take]
    omega
  · unfold part at hi ⊢
    rw [← h3] at hi ⊢
    rw [List.length_take] at hi
    rw [List.getElem?_take, if_pos (by omega), List.getElem?_drop]

/-- **C77**: the entries of an attribute list that is kept in the file record. If the list starts at the address `q + s`
and the iterator at the position `q`, each entry is found `s` bytes after its position. -/
theorem C77_list_resident_partial (img : Bytes) (himg : img.length < U64) (base q s : Nat) (hq : 0 < q) (b : Bytes)
    (hf : FoundAt img base (q + s) b) (d : Dev) (n i : Nat) (r : Res (Option ListEntry))
    (hr : (AttrList.calls n (.resident b (some q), d))[i]? = some r) (t : Nat)
    (ht : t = listShown (AttrList.calls i (.resident b (some q), d))) :
    r.Reports (· = some (q + t)) ∧ ∀ e, r = .ok (some e) → e.position = some (q + t) ∧
      ∃ c, FoundAt img base (q + t + s) c ∧ e = entryAt c (some (q + t)) ∧ e.length = c.length := by
  induction n generalizing b q i t with
  | zero => simp [AttrList.calls] at hr
  | succ n ih =>
    have hstep : ∃ r1 b' q', AttrList.next (.resident b (some q), d) = (r1, (.resident b' q', d)) ∧
        r1.Reports (· = some q) ∧ ((∀ e, r1 ≠ .ok (some e)) → b' = b ∧ q' = some q) ∧
        ∀ e, r1 = .ok (some e) → e = entryAt b (some q) ∧ e.length ≤ b.length ∧ 26 ≤ e.length ∧
          26 + field b 6 1 * 2 ≤ e.length ∧ b' = b.drop e.length ∧ q' = Pos.add (some q) e.length := by
      unfold AttrList.next AttrList.nextResident
      by_cases hb : b = []
      · dsimp only
        rw [if_pos hb]
        exact ⟨_, b, some q, rfl, .ok _, fun _ => ⟨rfl, rfl⟩, fun _ h => nomatch h⟩
      dsimp only
      rw [if_neg hb]
      obtain ⟨s', _, he⟩ := ListEntry.new_eq cursor_exactLike (some q) b trivial
      change ListEntry.new cursorReadExact (some q) b = (entryRes b (some q), s') at he
      have hrep := entryRes_reports b (some q)
      rw [he]
      cases hx : entryRes b (some q) with
      | err x =>
        rw [hx] at hrep
        exact ⟨_, b, some q, rfl, fun e p h => by cases h; exact hrep _ _ rfl, fun _ => ⟨rfl, rfl⟩,
          fun _ h => nomatch h⟩
      | panic x => exact ⟨_, b, some q, rfl, .panic _, fun _ => ⟨rfl, rfl⟩, fun _ h => nomatch h⟩
      | diverge => exact ⟨_, b, some q, rfl, (fun _ _ h => nomatch h), fun _ => ⟨rfl, rfl⟩, fun _ h => nomatch h⟩
      | ok e =>
        obtain ⟨k1, k2, k3, k4⟩ := entryRes_ok hx
        dsimp only
        cases hg : getRange b e.length b.length with
        | none => exact ⟨_, b, some q, rfl, .ok _, fun _ => ⟨rfl, rfl⟩, fun _ h => nomatch h⟩
        | some rest =>
          obtain ⟨m1, m2, m3⟩ := getRange_isSome_iff.1 hg
          refine ⟨_, rest, _, rfl, .ok _, fun h => absurd rfl (h e), fun e' he' => ?_⟩
          cases he'
          exact ⟨k1, m1, by omega, k3, by rw [m3, List.take_of_length_le (by simp)], rfl⟩
    obtain ⟨r1, b', q', hnext, hrep, hsame, hok⟩ := hstep
    rw [AttrList.calls, hnext] at hr
    dsimp only at hr
    cases i with
    | zero =>
      cases hr
      simp only [AttrList.calls, listShown] at ht
      subst ht
      refine ⟨hrep, fun e he => ?_⟩
      obtain ⟨k1, k2, k3, k4, _⟩ := hok e he
      refine ⟨by rw [k1]; rfl, b.take e.length, ?_, ?_, by rw [List.length_take]; omega⟩
      · have := hf.sub 0 e.length (by omega)
        unfold part at this
        rw [List.drop_zero] at this
        exact this
      · rw [k1] at k3 k4 ⊢
        show entryAt b (some q) = entryAt (b.take (field b 4 2)) (some q)
        change 26 ≤ field b 4 2 at k3
        change 26 + field b 6 1 * 2 ≤ field b 4 2 at k4
        unfold entryAt
        rw [field_take (by omega), field_take (by omega), field_take (by omega), field_take (by omega),
          field_take (by omega), List.drop_take, List.take_take, List.drop_take, List.take_take]
        congr 3
        · omega
        · omega
    | succ i =>
      rw [List.getElem?_cons_succ] at hr
      have hc : AttrList.calls (i + 1) (.resident b (some q), d) = r1 :: AttrList.calls i (.resident b' q', d) := by
        rw [AttrList.calls, hnext]
      rw [hc] at ht
      by_cases hx : ∃ x, r1 = .ok (some x)
      · obtain ⟨x, rfl⟩ := hx
        obtain ⟨_, k2, k3, _, k4, k5⟩ := hok x rfl
        have hin := hf.inside
        rw [Pos.add_some (by omega) (by omega)] at k5
        subst k4 k5
        have hf' : FoundAt img base (q + x.length + s) (b.drop x.length) := by
          have := hf.sub x.length (b.length - x.length) (by omega)
          unfold part at this
          rw [List.take_of_length_le (by simp)] at this
          rwa [show q + x.length + s = q + s + x.length by omega]
        have := ih (q + x.length) (by omega) (b.drop x.length) hf' i hr _ rfl
        simp only [listShown] at ht
        rw [ht, ← Nat.add_assoc]
        exact this
      · obtain ⟨rfl, rfl⟩ := hsame fun e he => hx ⟨e, he⟩
        rw [listShown_skip (fun e he => hx ⟨e, he⟩)] at ht
        exact ih q hq b' hf i hr t ht

end NT
