import Verif.Props.C06_ReadExact

/-! C07, continued: what `read_exact` gives over a device that fails at arbitrary calls, interruptions
included. The bytes always are contiguous and are those that end at the new position; interruptions
only can make them begin too late, by as many bytes as the position is too far. -/

namespace NT

open Spec

namespace Spec

/-- The outcome `r`, `pos'`, `out` of reading exactly `buf.length` bytes at `pos` from a file with contents
`W`, if the first `lost` bytes behind `pos` are passed over and device calls may fail with the errors
in `E`: `n` contiguous bytes are delivered, the position is behind them, and nothing else of the buffer
changes, apart from the space of `lost` bytes. -/
structure ReadFrom (W : Bytes) (pos : Nat) (buf : Bytes) (E : IoErr → Prop) (lost : Nat) (r : Res Unit)
    (pos' : Nat) (out : Bytes) (n : Nat) : Prop where
  le : n ≤ buf.length
  inside : n ≤ (W.drop (pos + lost)).length
  bytes : out.take n = (W.drop (pos + lost)).take n
  rest : out.drop (n + lost) = buf.drop (n + lost)
  length : out.length = buf.length
  position : pos' = pos + lost + n
  lostInside : lost = 0 ∨ (pos + lost < W.length ∧ E .interrupted)
  result : (r = .ok () ∧ n = buf.length) ∨
    (r = .err (.io .unexpectedEof) ∧ n < buf.length ∧ n = (W.drop (pos + lost)).length) ∨
    (∃ e, r = .err (.io e) ∧ e ≠ .interrupted ∧ E e ∧ n < buf.length ∧ n < (W.drop (pos + lost)).length)

end Spec

theorem readExactLoop_any (img : Bytes) (all : List DataRun) (size : Nat) (himg : img.length < U64)
    (E : IoErr → Prop) (fuel : Nat) : ∀ (v : NonRes) (d : Dev) (pre buf : Bytes), v.Good img all →
    d.img = img → v.st.dataSize = size → (∀ e, .fail e ∈ d.sched → E e) →
    buf.length + d.sched.length < fuel →
    ∃ r v' d' out lost n, readExactLoop NonRes.readFn fuel (v, d) pre buf = (r, (v', d'), pre ++ out) ∧
      v'.Good img all ∧ v'.st.dataSize = size ∧ d'.img = img ∧
      Spec.ReadFrom ((restBytes img all).take size) v.st.streamPosition buf E lost r
        v'.st.streamPosition out n := by
  induction fuel with
  | zero => intro v d pre buf _ _ _ _ h; omega
  | succ fuel ih =>
    intro v d pre buf hg hi hsz hE hf
    simp only [readExactLoop]
    by_cases h0 : buf.length = 0
    · rw [if_pos h0]
      have hb : buf = [] := List.eq_nil_of_length_eq_zero h0
      subst hb
      exact ⟨_, v, d, [], 0, 0, rfl, hg, hsz, hi, by omega, by omega, rfl, rfl, rfl, rfl, .inl rfl,
        .inl ⟨rfl, rfl⟩⟩
    rw [if_neg h0]
    obtain ⟨m, v', buf', d', h1, h2, h3, h4, h5, h6, h7, h8, h9, h10⟩ :=
      NonRes.read_any img all v hg himg buf d hi
    rw [hsz] at h2 h3 h4 h7
    obtain ⟨W, hW⟩ : ∃ W, W = (restBytes img all).take size := ⟨_, rfl⟩
    rw [← hW] at h2 h3 h4 ⊢
    obtain ⟨p, hp⟩ : ∃ p, p = v.st.streamPosition := ⟨_, rfl⟩
    rw [← hp] at h2 h3 h4 h8 ⊢
    have hE' : ∀ e, .fail e ∈ d'.sched → E e := fun e he => hE e (h10 _ he)
    have hpl : ((W.drop p).take m).length = m := by rw [List.length_take]; omega
    have hbl : buf'.length = buf.length := by
      rw [h2, List.length_append, hpl, List.length_drop]; omega
    rcases h4 with ⟨k1, k2, k3⟩ | ⟨e, k1, k2, k3, k4, k5⟩
    · have hr : NonRes.readFn (v, d) buf = (.ok m, (v', d'), buf') := by
        simp only [NonRes.readFn, k1]
      rw [hr]
      dsimp only
      by_cases hm : m = 0
      · rw [if_pos hm]
        subst hm
        have hd0 : (W.drop p).length = 0 := by omega
        have : buf' = buf := by rw [h2]; simp
        refine ⟨_, v', d', buf', 0, 0, rfl, h5, h7, h9, by omega, by omega, by simp, by rw [this],
          hbl, by rw [h8], .inl rfl, .inr (.inl ⟨rfl, by omega, ?_⟩)⟩
        rw [Nat.add_zero]; omega
      · rw [if_neg hm, if_pos (by omega)]
        have ht : buf'.take m = (W.drop p).take m := by
          rw [h2, List.take_left' hpl]
        have hdr : buf'.drop m = buf.drop m := by
          rw [h2, List.drop_left' hpl]
        obtain ⟨r, v2, d2, out, lost, n, g1, g2, g3, g4, g5⟩ := ih v' d' (pre ++ buf'.take m)
          (buf'.drop m) h5 h9 h7 hE' (by rw [List.length_drop, hbl]; omega)
        rw [← hW, h8] at g5
        have hgl := g5.le
        have hgi := g5.inside
        have hlen := g5.length
        rw [List.length_drop, hbl] at hgl hlen
        rw [List.length_drop] at hgi
        have hWd : (W.drop p).length = W.length - p := List.length_drop
        have hl0 : lost = 0 := by
          rcases g5.lostInside with h | h
          · exact h
          · have hgr := g5.result
            rw [List.length_drop, List.length_drop, hbl] at hgr
            have hmlt : m < buf.length ∨ m = buf.length := by omega
            rcases hmlt with hlt | heq
            · omega
            · obtain ⟨f, rfl⟩ : ∃ f, fuel = f + 1 := ⟨fuel - 1, by omega⟩
              simp only [readExactLoop] at g1
              rw [if_pos (by rw [List.length_drop, hbl]; omega)] at g1
              injection g1 with q1 q2
              injection q2 with q2 q3
              injection q2 with q2 q4
              have := g5.position
              rw [← q2, h8] at this
              omega
        subst hl0
        rw [Nat.add_zero] at hgi
        refine ⟨r, v2, d2, buf'.take m ++ out, 0, m + n, ?_, g2, g3, g4, ?_⟩
        · rw [g1, List.append_assoc]
        refine ⟨by omega, by rw [Nat.add_zero]; omega, ?_, ?_, ?_, ?_, .inl rfl, ?_⟩
        · have hb := g5.bytes
          have htl : (buf'.take m).length = m := by rw [List.length_take]; omega
          rw [List.take_append, htl, List.take_of_length_le (by omega), Nat.add_sub_cancel_left, hb, ht,
            Nat.add_zero, Nat.add_zero, ← List.drop_drop, ← List.take_add]
        · have hrs := g5.rest
          have htl : (buf'.take m).length = m := by rw [List.length_take]; omega
          rw [Nat.add_zero, List.drop_append, htl, Nat.add_sub_cancel_left,
            List.drop_eq_nil_of_le (by omega), List.nil_append]
          rw [Nat.add_zero] at hrs
          rw [hrs, hdr, List.drop_drop]
        · rw [List.length_append, List.length_take, hlen]; omega
        · rw [g5.position]; omega
        · rcases g5.result with ⟨a, b⟩ | ⟨a, b, c⟩ | ⟨e, a, b, c, f, g⟩
          · rw [List.length_drop, hbl] at b
            exact .inl ⟨a, by omega⟩
          · rw [List.length_drop, hbl] at b
            rw [List.length_drop] at c
            exact .inr (.inl ⟨a, by omega, by rw [Nat.add_zero, hWd]; omega⟩)
          · rw [List.length_drop, hbl] at f
            rw [List.length_drop] at g
            exact .inr (.inr ⟨e, a, b, c, by omega, by rw [Nat.add_zero, hWd]; omega⟩)
    · have hr : NonRes.readFn (v, d) buf = (.err (.io e), (v', d'), buf') := by
        simp only [NonRes.readFn, k1]
      rw [hr]
      dsimp only
      by_cases he : e = .interrupted
      · subst he
        rw [if_pos rfl]
        obtain ⟨r, v2, d2, out, lost, n, g1, g2, g3, g4, g5⟩ := ih v' d' pre buf' h5 h9 h7 hE'
          (by rw [hbl]; omega)
        rw [← hW, h8] at g5
        refine ⟨r, v2, d2, out, m + lost, n, g1, g2, g3, g4, ?_⟩
        have hWd : (W.drop p).length = W.length - p := List.length_drop
        have hadd : p + m + lost = p + (m + lost) := by omega
        refine ⟨by rw [← hbl]; exact g5.le, hadd ▸ g5.inside, hadd ▸ g5.bytes, ?_,
          g5.length.trans hbl, hadd ▸ g5.position, ?_, ?_⟩
        · have hrs := congrArg (List.drop m) g5.rest
          rw [List.drop_drop, List.drop_drop] at hrs
          have e1 : n + (m + lost) = n + lost + m := by omega
          rw [e1, hrs, h2, List.drop_append, hpl, List.drop_eq_nil_of_le (by omega), List.nil_append,
            List.drop_drop]
          congr 1; omega
        · right
          refine ⟨?_, hE _ k2⟩
          rcases g5.lostInside with h | h
          · omega
          · omega
        · have hres := g5.result
          rw [hadd, hbl] at hres
          exact hres
      · rw [if_neg (by intro hx; injection hx with hx; exact he hx)]
        refine ⟨_, v', d', buf', 0, m, rfl, h5, h7, h9, h1, by rw [Nat.add_zero]; exact h3, ?_, ?_, hbl,
          by rw [h8]; rfl, .inl rfl, .inr (.inr ⟨e, rfl, he, hE _ k2, k4, by rw [Nat.add_zero]; exact k5⟩)⟩
        · rw [h2, List.take_left' hpl, Nat.add_zero]
        · rw [Nat.add_zero, h2, List.drop_left' hpl]

theorem NonRes.run_good_any (img : Bytes) (all : List DataRun) (himg : img.length < U64)
    (ops : List Op) (hops : ∀ op ∈ ops, op.InRange) (v : NonRes) (hg : v.Good img all) (d : Dev)
    (hi : d.img = img) :
    (v.run d ops).2.1.Good img all ∧ (v.run d ops).2.1.st.dataSize = v.st.dataSize ∧
      (v.run d ops).2.2.img = img ∧ (∀ x ∈ (v.run d ops).2.2.sched, x ∈ d.sched) := by
  induction ops generalizing v d with
  | nil => exact ⟨hg, rfl, hi, fun _ h => h⟩
  | cons op ops ih =>
    have hops' : ∀ o ∈ ops, o.InRange := fun o ho => hops o (by simp [ho])
    have hs : (v.step d op).2.1.Good img all ∧ (v.step d op).2.1.st.dataSize = v.st.dataSize ∧
        (v.step d op).2.2.img = img ∧ (∀ x ∈ (v.step d op).2.2.sched, x ∈ d.sched) := by
      cases op with
      | read buf =>
        obtain ⟨m, v', buf', d', _, _, _, h4, h5, _, h7, _, h9, h10⟩ :=
          NonRes.read_any img all v hg himg buf d hi
        simp only [NonRes.step]
        rcases h4 with ⟨k1, _⟩ | ⟨e, k1, _⟩ <;> rw [k1] <;> exact ⟨h5, h7, h9, h10⟩
      | seek s =>
        have h := NonRes.seek_good img all v hg s (hops (.seek s) (by simp))
        simp only [NonRes.step]
        split at h
        · obtain ⟨v', h1, h2, _, h4, _⟩ := h
          rw [h1]; exact ⟨h2, h4, hi, fun _ h => h⟩
        · rw [h]; exact ⟨hg, rfl, hi, fun _ h => h⟩
    obtain ⟨s1, s2, s3, s4⟩ := hs
    obtain ⟨i1, i2, i3, i4⟩ := ih hops' _ s1 _ s3
    simp only [NonRes.run]
    exact ⟨i1, i2.trans s2, i3, fun x hx => s4 x (i4 x hx)⟩

/-- C07, the law that holds: over a device that fails at arbitrary calls, after any history of reads and
seeks, `read_exact` passes over some number `lost` of bytes and then delivers contiguous bytes of the
value, until it is done, or the value ends, or a device call fails for another reason than an
interruption. The position is behind the delivered bytes. Nothing is lost unless a device call is
interrupted. Missing: that nothing is lost at all, see `C07_negation`. -/
theorem C07_interrupted_partial (cs : Nat) (img data : Bytes) (es : List Extent) (p : Pos)
    (size : Nat) (h : StoredAs cs img data es) (hsize : size < U64) (d : Dev) (hi : d.img = img)
    (ops : List Op) (hops : ∀ op ∈ ops, op.InRange) (buf : Bytes) :
    ∃ v v1 d1 r v2 d2 out lost n, NonRes.new cs data p size = .ok v ∧ (v.run d ops).2 = (v1, d1) ∧
      v1.readExact buf d1 = (r, (v2, d2), out) ∧
      Spec.ReadFrom ((content cs img es).take size) v1.streamPosition buf (fun e => .fail e ∈ d1.sched)
        lost r v2.streamPosition out n := by
  obtain ⟨v, h1, h2, h3, _⟩ := NonRes.new_good h p size hsize
  obtain ⟨i1, i2, i3, _⟩ := NonRes.run_good_any img _ h.imgLt ops hops v h2 d hi
  obtain ⟨r, v2, d2, out, lost, n, g1, _, _, _, g5⟩ := readExactLoop_any img _ size h.imgLt
    (fun e => .fail e ∈ (v.run d ops).2.2.sched)
    (buf.length + (v.run d ops).2.2.sched.length + 1) _ _ [] buf i1 i3 (i2.trans h3) (fun _ h => h)
    (by omega)
  rw [restBytes_runOf] at g5
  exact ⟨v, _, _, r, v2, d2, out, lost, n, h1, rfl, g1, g5⟩

/-- C07, what a caller can rely on over any device: if `read_exact` succeeds, the buffer holds the bytes of
the value that end at the new position. So the bytes are the right ones exactly if the position has
moved by the size of the buffer, and it has if no device call was interrupted. -/
theorem C07_contiguous_partial (cs : Nat) (img data : Bytes) (es : List Extent) (p : Pos)
    (size : Nat) (h : StoredAs cs img data es) (hsize : size < U64) (d : Dev) (hi : d.img = img)
    (ops : List Op) (hops : ∀ op ∈ ops, op.InRange) (buf : Bytes) :
    ∃ v v1 d1 r v2 d2 out, NonRes.new cs data p size = .ok v ∧ (v.run d ops).2 = (v1, d1) ∧
      v1.readExact buf d1 = (r, (v2, d2), out) ∧
      (r = .ok () → v1.streamPosition + buf.length ≤ v2.streamPosition ∧
        out = (((content cs img es).take size).drop (v2.streamPosition - buf.length)).take buf.length ∧
        (v2.streamPosition = v1.streamPosition + buf.length →
          out = (((content cs img es).take size).drop v1.streamPosition).take buf.length) ∧
        (.fail .interrupted ∉ d1.sched → v2.streamPosition = v1.streamPosition + buf.length)) := by
  obtain ⟨v, v1, d1, r, v2, d2, out, lost, n, h1, h2, h3, h4⟩ :=
    C07_interrupted_partial cs img data es p size h hsize d hi ops hops buf
  refine ⟨v, v1, d1, r, v2, d2, out, h1, h2, h3, ?_⟩
  intro hr
  have hn : n = buf.length := by
    rcases h4.result with ⟨_, h⟩ | ⟨h, _⟩ | ⟨_, h, _⟩
    · exact h
    · rw [hr] at h; cases h
    · rw [hr] at h; cases h
  have hp := h4.position
  have hb := h4.bytes
  rw [hn] at hp hb
  rw [List.take_of_length_le (by rw [h4.length]; omega)] at hb
  refine ⟨by omega, ?_, ?_, ?_⟩
  · rw [hb]; congr 2; omega
  · intro he
    rw [hb]; congr 2; omega
  · intro hno
    rcases h4.lostInside with h | h
    · omega
    · exact absurd h.2 hno

/-- Both theorems apply to the example of `C07_negation`: two bytes are lost, and the position tells. -/
example : ∃ v, NonRes.new 4 [0x11, 1, 1, 0x11, 1, 1] none 8 = .ok v ∧
    StoredAs 4 [0, 1, 2, 3, 4, 5, 6, 7, 8, 9, 10, 11] [0x11, 1, 1, 0x11, 1, 1]
      [⟨1, some 1⟩, ⟨1, some 2⟩] ∧
    ∃ v1, (v.run ⟨[0, 1, 2, 3, 4, 5, 6, 7, 8, 9, 10, 11], 0,
        [.chunk 9, .chunk 9, .fail .interrupted]⟩ [.seek (.start 2)]).2.1 = v1 ∧
      v1.streamPosition = 2 ∧
      (v1.readExact [77, 77, 77, 77] ⟨[0, 1, 2, 3, 4, 5, 6, 7, 8, 9, 10, 11], 0,
        [.chunk 9, .chunk 9, .fail .interrupted]⟩).2.1.1.streamPosition = 8 ∧
      (v1.readExact [77, 77, 77, 77] ⟨[0, 1, 2, 3, 4, 5, 6, 7, 8, 9, 10, 11], 0,
        [.chunk 9, .chunk 9, .fail .interrupted]⟩).2.2 = [8, 9, 10, 11] := by
  refine ⟨_, rfl, ⟨by decide, ?_, by simp [Representable], by simp [NonZero, Extent.lcnAfter],
    by simp [InImage], by decide⟩, _, rfl, by decide, by decide, by decide⟩
  refine .run 0 1 1 _ _ _ ?_ (.run _ 1 1 _ _ _ ?_ (.atEnd _))
  · simp [WidthsOk, FitsSigned]
  · simp [WidthsOk, FitsSigned, Extent.lcnAfter]

/-- The other branches occur: the value ends, and a call fails after part of the bytes. -/
example : ∃ v, NonRes.new 4 [0x11, 1, 1, 0x11, 1, 1] none 8 = .ok v ∧
    (v.readExact (List.replicate 9 77) ⟨[0, 1, 2, 3, 4, 5, 6, 7, 8, 9, 10, 11], 0,
        [.chunk 9, .chunk 9, .fail .interrupted]⟩).1 = .err (.io .unexpectedEof) ∧
    (v.readExact (List.replicate 9 77) ⟨[0, 1, 2, 3, 4, 5, 6, 7, 8, 9, 10, 11], 0,
        [.chunk 9, .chunk 9, .fail .interrupted]⟩).2.2 = [8, 9, 10, 11, 77, 77, 77, 77, 77] ∧
    (v.readExact (List.replicate 9 77) ⟨[0, 1, 2, 3, 4, 5, 6, 7, 8, 9, 10, 11], 0,
        [.chunk 9, .chunk 1, .fail (.other 5)]⟩).1 = .err (.io (.other 5)) ∧
    (v.readExact (List.replicate 9 77) ⟨[0, 1, 2, 3, 4, 5, 6, 7, 8, 9, 10, 11], 0,
        [.chunk 9, .chunk 1, .fail (.other 5)]⟩).2.2 = [4, 5, 77, 77, 77, 77, 77, 77, 77] := by
  exact ⟨_, rfl, by decide, by decide, by decide, by decide⟩

/-- Both theorems apply to that value and that device. -/
example := C07_interrupted_partial 4 _ _ _ none 10 exampleStored (by decide)
  ⟨[0, 1, 2, 3, 4, 5, 6, 7, 8, 9, 10, 11], 0, [.chunk 9, .chunk 9, .fail .interrupted]⟩ rfl [.seek (.start 2)] (by decide)
  [77, 77, 77, 77]
example := C07_contiguous_partial 4 _ _ _ none 10 exampleStored (by decide)
  ⟨[0, 1, 2, 3, 4, 5, 6, 7, 8, 9, 10, 11], 0, [.chunk 9, .chunk 9, .fail .interrupted]⟩ rfl [.seek (.start 2)] (by decide)
  [77, 77, 77, 77]

end NT
