import Verif.Model.Shell
import Verif.Lemmas.IndexRecord

/-! C53: copying a value with a loop of `read` calls, as the `get` command of the example shell does. -/

namespace NT

open Spec

/-- The loop copies exactly what the reader has left, whatever the size of the buffer. -/
theorem copyLoop_readsLike {σ : Type} {read : ReadFn σ} {P : σ → Prop} {rest : σ → Bytes}
    {pos : σ → Nat} (h : ReadsLike read P rest pos) (fuel : Nat) (s : σ) (buf out : Bytes) (hP : P s)
    (hb : buf ≠ []) (hf : (rest s).length < fuel) :
    ∃ s', P s' ∧ rest s' = [] ∧ pos s' = pos s + (rest s).length ∧
      copyLoop read fuel s buf out = (.ok (), s', out ++ rest s) := by
  induction fuel generalizing s buf out with
  | zero => omega
  | succ fuel ih =>
    obtain ⟨s', e, hP', hr, hpos⟩ := h s buf hP
    have hbl : 0 < buf.length := List.length_pos_iff.2 hb
    unfold copyLoop
    rw [e]
    dsimp only
    obtain ⟨got, hgot⟩ : ∃ got, got = (rest s).take buf.length := ⟨_, rfl⟩
    rw [← hgot] at hr hpos ⊢
    have hgl : got.length = min buf.length (rest s).length := by rw [hgot, List.length_take]
    by_cases h0 : got.length = 0
    · have hnil : rest s = [] := List.eq_nil_of_length_eq_zero (by omega)
      rw [if_pos h0]
      refine ⟨s', hP', by rw [hr, hnil]; simp, by rw [hpos, hnil, h0]; rfl, by rw [hnil, List.append_nil]⟩
    · rw [if_neg h0, if_pos (by simp), List.take_left]
      obtain ⟨s2, g1, g2, g3, g4⟩ := ih s' (got ++ buf.drop got.length) (out ++ got) hP'
        (by intro h; rw [List.append_eq_nil_iff] at h; rw [h.1] at h0; exact h0 rfl)
        (by rw [hr, List.length_drop]; omega)
      refine ⟨s2, g1, g2, ?_, ?_⟩
      · rw [g3, hpos, hr, List.length_drop]; omega
      · rw [g4, hr, List.append_assoc]
        congr 3
        have : got = (rest s).take got.length := by
          rw [hgot, List.length_take]
          rw [List.take_eq_take_iff]; omega
        conv => lhs; lhs; rw [this]
        exact List.take_append_drop _ _

/-- **C53**: for every value, of whatever kind, and every non-empty buffer, the loop of `get` ends after
it has written exactly the bytes of the value from the current position on, and leaves the value at its
end; in particular it is independent of how the device splits its answers. -/
theorem C53_copy {img c : Bytes} {v : Val} (hv : v.Has img c) (d : Dev) (hd : d.Ok img) (buf out : Bytes)
    (hb : buf ≠ []) (fuel : Nat) (hf : c.length < fuel) :
    ∃ v' d', copyLoop Val.readFn fuel (v, d) buf out = (.ok (), (v', d'), out ++ c.drop v.streamPosition) ∧
      d'.Ok img ∧ v'.Has img c ∧
      v'.streamPosition = v.streamPosition + (c.length - v.streamPosition) := by
  obtain ⟨⟨v', d'⟩, ⟨h1, h2⟩, _, h4, h5⟩ := copyLoop_readsLike (Val.readsLike img c) fuel (v, d) buf out
    ⟨hv, hd⟩ hb (by dsimp only; rw [List.length_drop]; omega)
  dsimp only at h4 h5
  rw [List.length_drop] at h4
  exact ⟨v', d', h5, h2, h1, h4⟩

/-- **C53**: a value that has just been opened is copied completely. The command announces `v.len`
bytes; it writes that many exactly if the runs of the value provide them. -/
theorem C53_copy_all {img c : Bytes} {a : Attr} {size : Nat} (ha : a.Opens img c size) (d : Dev)
    (hd : d.Ok img) (buf : Bytes) (hb : buf ≠ []) (fuel : Nat) (hf : c.length < fuel) :
    ∃ v d1 v' d2, a.value d = (.ok v, d1) ∧ v.len = size ∧
      copyLoop Val.readFn fuel (v, d1) buf [] = (.ok (), (v', d2), c) ∧ d2.Ok img ∧ c.length ≤ size := by
  obtain ⟨v, d1, e, hd1, hv, hpos, hlen⟩ := ha d hd
  obtain ⟨v', d2, e2, hd2, _⟩ := C53_copy hv d1 hd1 buf [] hb fuel hf
  rw [hpos, List.drop_zero, List.nil_append] at e2
  exact ⟨v, d1, v', d2, e, hlen, e2, hd2, by rw [← hlen]; exact hv.length_le⟩

/-- A fragmented value with a hole, copied with a buffer of three bytes over a device that delivers at
most two bytes per call. -/
example : ∃ v, NonRes.new 4 [0x11, 1, 2, 0x01, 1, 0x11, 1, 0xFF, 0] none 10 = .ok v ∧
    Val.Has [0, 1, 2, 3, 4, 5, 6, 7, 8, 9, 10, 11] [8, 9, 10, 11, 0, 0, 0, 0, 4, 5] (.simple (.nonRes v)) ∧
    (copyLoop Val.readFn 11 (.simple (.nonRes v),
      ⟨[0, 1, 2, 3, 4, 5, 6, 7, 8, 9, 10, 11], 0, List.replicate 20 (.chunk 1)⟩) [77, 77, 77] []).2.2 =
      [8, 9, 10, 11, 0, 0, 0, 0, 4, 5] := by
  have hst : StoredAs 4 [0, 1, 2, 3, 4, 5, 6, 7, 8, 9, 10, 11] [0x11, 1, 2, 0x01, 1, 0x11, 1, 0xFF, 0]
      [⟨1, some 2⟩, ⟨1, none⟩, ⟨1, some 1⟩] := exampleStored
  obtain ⟨v, h1, h2, h3, h4, _⟩ := NonRes.new_good hst none 10 (by decide)
  have hh : Val.Has [0, 1, 2, 3, 4, 5, 6, 7, 8, 9, 10, 11] [8, 9, 10, 11, 0, 0, 0, 0, 4, 5]
      (.simple (.nonRes v)) := ⟨by decide, _, h2, by rw [h3, restBytes_runOf]; decide⟩
  refine ⟨v, h1, hh, ?_⟩
  obtain ⟨v', d', e, _⟩ := C53_copy hh ⟨[0, 1, 2, 3, 4, 5, 6, 7, 8, 9, 10, 11], 0,
    List.replicate 20 (.chunk 1)⟩ ⟨rfl, by intro r hr e; rw [List.eq_of_mem_replicate hr]; simp⟩ [77, 77, 77] []
    (by decide) 11 (by decide)
  have hz : (Val.simple (.nonRes v)).streamPosition = 0 := h4
  rw [e, hz]
  rfl

/-- A value whose data size (20) exceeds what its runs provide (4 bytes): `get` announces 20 bytes,
writes 4 and reports success. -/
theorem C53_short_negation : ∃ v, NonRes.new 4 [0x11, 1, 2, 0] none 20 = .ok v ∧
    (Val.simple (.nonRes v)).len = 20 ∧
    ((copyLoop Val.readFn 100 (.simple (.nonRes v), ⟨[0, 1, 2, 3, 4, 5, 6, 7, 8, 9, 10, 11], 0, []⟩)
      (List.replicate 4096 0) []).1 = .ok () ∧
    (copyLoop Val.readFn 100 (.simple (.nonRes v), ⟨[0, 1, 2, 3, 4, 5, 6, 7, 8, 9, 10, 11], 0, []⟩)
      (List.replicate 4096 0) []).2.2 = [8, 9, 10, 11]) := by
  have hst : StoredAs 4 [0, 1, 2, 3, 4, 5, 6, 7, 8, 9, 10, 11] [0x11, 1, 2, 0] [⟨1, some 2⟩] :=
    { clusterPos := by decide
      enc := by
        refine .run 0 1 1 _ _ _ ?_ (.terminated _ [])
        simp [WidthsOk, FitsSigned]
      rep := by simp [Representable]
      nonZero := by simp [NonZero]
      inImage := by simp [InImage]
      imgLt := by decide }
  obtain ⟨v, h1, h2, h3, h4, _⟩ := NonRes.new_good hst none 20 (by decide)
  have hh : Val.Has [0, 1, 2, 3, 4, 5, 6, 7, 8, 9, 10, 11] [8, 9, 10, 11]
      (.simple (.nonRes v)) := ⟨by decide, _, h2, by rw [h3, restBytes_runOf]; decide⟩
  refine ⟨v, h1, h3, ?_⟩
  obtain ⟨v', d', e, _⟩ := C53_copy hh ⟨[0, 1, 2, 3, 4, 5, 6, 7, 8, 9, 10, 11], 0, []⟩
    ⟨rfl, by intro r hr; cases hr⟩ (List.replicate 4096 0) [] (by intro h; cases h) 100 (by decide)
  have hz : (Val.simple (.nonRes v)).streamPosition = 0 := h4
  rw [e, hz]
  exact ⟨rfl, rfl⟩

/-- `C53_copy_all` on the attribute of C38 with the same runs. -/
example (d : Dev) (hd : d.Ok _) := C53_copy_all (a := exNonResName) (c := [8, 9, 10, 11, 0, 0, 0, 0, 4, 5])
  (Attr.opens_nonResident _ exNonResName (by unfold Attr.HeaderIn; decide) rfl (by decide) (by decide)
    64 73 10 (by decide) (by decide) (by decide) (by decide) (by decide) _ exampleStored) d hd [77, 77, 77] (by decide) 11 (by decide)

end NT
