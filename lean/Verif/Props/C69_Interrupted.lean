import Verif.Props.C69_Attached
import Verif.Props.C07_Interrupted

/-! C69, continued: `read_to_end` over a reader that is interrupted. -/

namespace NT

open Spec

theorem NonRes.attached_read (v : NonRes) (d : Dev) (buf : Bytes) :
    ((Val.simple (.nonRes v)).attach d).read buf =
      ((v.read buf d).1.toIo, (Val.simple (.nonRes (v.read buf d).2.1)).attach (v.read buf d).2.2.2,
        (v.read buf d).2.2.1) := rfl

theorem stdReadToEnd_any (img : Bytes) (all : List DataRun) (size : Nat) (himg : img.length < U64)
    (E : IoErr → Prop) (space : Nat → Nat) (hs : ∀ i, 0 < space i) (c : Bytes)
    (hc : c = (restBytes img all).take size) (fuel : Nat) : ∀ (i : Nat) (v : NonRes) (d : Dev) (out : Bytes),
    v.Good img all → d.img = img → v.st.dataSize = size → (∀ e, .fail e ∈ d.sched → E e) →
    (c.drop v.st.streamPosition).length + d.sched.length < fuel →
    ∃ r v' d' got, stdReadToEnd AttachedVal.read space fuel i ((Val.simple (.nonRes v)).attach d) out =
        (r, (Val.simple (.nonRes v')).attach d', out ++ got) ∧
      v'.Good img all ∧ v'.st.dataSize = size ∧ d'.img = img ∧
      got.Sublist ((c.drop v.st.streamPosition).take (v'.st.streamPosition - v.st.streamPosition)) ∧
      v.st.streamPosition ≤ v'.st.streamPosition ∧
      ((r = .ok () ∧ c.drop v'.st.streamPosition = []) ∨
        ∃ e, r = .err (.plain e) ∧ e ≠ .interrupted ∧ E e) ∧
      (¬ E .interrupted → (∃ n, got = (c.drop v.st.streamPosition).take n) ∧
        (r = .ok () → got = c.drop v.st.streamPosition)) := by
  subst hc
  obtain ⟨c, hc⟩ : ∃ c, c = (restBytes img all).take size := ⟨_, rfl⟩
  rw [← hc]
  induction fuel with
  | zero => intro i v d out _ _ _ _ h; omega
  | succ fuel ih =>
    intro i v d out hg hi hsz hE hf
    obtain ⟨m, v', buf', d', h1, h2, h3, h4, h5, h6, h7, h8, h9, h10⟩ :=
      NonRes.read_any img all v hg himg (List.replicate (space i) 0) d hi
    rw [hsz, ← hc] at h2 h3 h4
    rw [hsz] at h7
    rw [List.length_replicate] at h1 h4
    unfold stdReadToEnd
    rw [NonRes.attached_read]
    have hE' : ∀ e, .fail e ∈ d'.sched → E e := fun e he => hE e (h10 _ he)
    have hpl : ((c.drop v.st.streamPosition).take m).length = m := by rw [List.length_take]; omega
    have hbt : buf'.take m = (c.drop v.st.streamPosition).take m := by rw [h2, List.take_left' hpl]
    have hbl : m ≤ buf'.length := by rw [h2, List.length_append, hpl]; omega
    have hdd : (c.drop v.st.streamPosition).drop m = c.drop v'.st.streamPosition := by
      rw [h8, List.drop_drop]
    rcases h4 with ⟨k1, k2, k3⟩ | ⟨e, k1, k2, k3, k4, k5⟩
    · rw [k1]
      dsimp only [Res.toIo]
      have hsi := hs i
      by_cases hm : m = 0
      · rw [if_pos hm]
        have hd0 : (c.drop v.st.streamPosition) = [] := List.eq_nil_of_length_eq_zero (by omega)
        have hp : v'.st.streamPosition = v.st.streamPosition := by omega
        refine ⟨_, v', d', [], by rw [List.append_nil], h5, h7, h9, List.nil_sublist _, by omega,
          .inl ⟨rfl, by rw [hp]; exact hd0⟩, fun _ => ⟨⟨0, rfl⟩, fun _ => hd0.symm⟩⟩
      · rw [if_neg hm, if_pos hbl]
        obtain ⟨r, v2, d2, got, g1, g2, g3, g4, g5, g6, g7, g8⟩ := ih (i + 1) v' d' (out ++ buf'.take m) h5 h9 h7
          hE' (by rw [← hdd, List.length_drop]; omega)
        refine ⟨r, v2, d2, buf'.take m ++ got, by rw [g1, List.append_assoc], g2, g3, g4, ?_, by omega, g7, ?_⟩
        · have e1 : v2.st.streamPosition - v.st.streamPosition =
            m + (v2.st.streamPosition - v'.st.streamPosition) := by omega
          rw [e1, List.take_add, hdd, hbt]
          exact (List.Sublist.refl _).append g5
        · intro hno
          obtain ⟨⟨n, hn⟩, hall⟩ := g8 hno
          refine ⟨⟨m + n, ?_⟩, fun hr => ?_⟩
          · rw [hbt, List.take_add, hdd, hn]
          · rw [hbt, hall hr, ← hdd, List.take_append_drop]
    · rw [k1]
      by_cases he : e = .interrupted
      · subst he
        dsimp only [Res.toIo]
        rw [if_pos (by rfl)]
        obtain ⟨r, v2, d2, got, g1, g2, g3, g4, g5, g6, g7, g8⟩ := ih (i + 1) v' d' out h5 h9 h7
          hE' (by rw [← hdd, List.length_drop]; omega)
        refine ⟨r, v2, d2, got, g1, g2, g3, g4, ?_, by omega, g7, fun hno => absurd (hE _ k2) hno⟩
        have e1 : v2.st.streamPosition - v.st.streamPosition =
            m + (v2.st.streamPosition - v'.st.streamPosition) := by omega
        rw [e1, List.take_add, hdd]
        exact g5.trans (List.sublist_append_right _ _)
      · have hni : (Err.io e).toIo.isInterrupted = false := by
          cases hx : (Err.io e).toIo.isInterrupted with
          | false => rfl
          | true =>
            have := (C69_errors (.io e) (.io e)).2.1.1 hx
            injection this with this
            exact absurd this he
        dsimp only [Res.toIo]
        rw [hni]
        refine ⟨_, v', d', [], by rw [List.append_nil]; rfl, h5, h7, h9, List.nil_sublist _, by omega,
          .inr ⟨e, rfl, he, hE _ k2⟩, fun _ => ⟨⟨0, rfl⟩, fun hr => ?_⟩⟩
        cases hr

/-- **C69**, over a reader that fails in any way, interruptions included: `read_to_end` on a non-resident value of one
attribute, after any history of reads and seeks, comes to an end. What it collects are bytes of the value between the
old and the new position, in their order, possibly with gaps. It fails only for a failure of the reader that is no
interruption. If it succeeds it is at the end of the value, and it has collected everything exactly if the number of
bytes is the number that was left; so a caller who compares the numbers detects every loss. Nothing is lost without an
interruption. Missing: that nothing is lost at all (`C69_interrupted_negation`). -/
theorem C69_read_to_end_any_partial (cs : Nat) (img data : Bytes) (es : List Extent) (p : Pos) (size : Nat)
    (h : StoredAs cs img data es) (hsize : size < U64) (d : Dev) (hi : d.img = img)
    (ops : List Op) (hops : ∀ op ∈ ops, op.InRange) (space : Nat → Nat) (hs : ∀ i, 0 < space i) :
    ∃ v v1 d1, NonRes.new cs data p size = .ok v ∧ (v.run d ops).2 = (v1, d1) ∧
      ∀ fuel, size + d1.sched.length < fuel → ∃ r v2 d2 got,
      ((Val.simple (.nonRes v1)).attach d1).readToEnd space fuel =
        (r, (Val.simple (.nonRes v2)).attach d2, got) ∧
      got.Sublist ((((content cs img es).take size).drop v1.streamPosition).take
        (v2.streamPosition - v1.streamPosition)) ∧
      ((r = .ok () ∧ min size (content cs img es).length ≤ v2.streamPosition) ∨
        ∃ e, r = .err (.plain e) ∧ e ≠ .interrupted ∧ .fail e ∈ d1.sched) ∧
      (got = ((content cs img es).take size).drop v1.streamPosition ↔
        got.length = min size (content cs img es).length - v1.streamPosition) ∧
      (.fail .interrupted ∉ d1.sched →
        (∃ n, got = (((content cs img es).take size).drop v1.streamPosition).take n) ∧
        (r = .ok () → got = ((content cs img es).take size).drop v1.streamPosition)) := by
  obtain ⟨v, h1, h2, h3, _⟩ := NonRes.new_good h p size hsize
  obtain ⟨i1, i2, i3, i4⟩ := NonRes.run_good_any img _ h.imgLt ops hops v h2 d hi
  refine ⟨v, (v.run d ops).2.1, (v.run d ops).2.2, h1, rfl, fun fuel hf => ?_⟩
  have hl : (((content cs img es).take size).drop (v.run d ops).2.1.streamPosition).length =
      min size (content cs img es).length - (v.run d ops).2.1.streamPosition := by
    rw [List.length_drop, List.length_take]
  obtain ⟨r, v2, d2, got, g1, _, _, _, g5, g6, g7, g8⟩ := stdReadToEnd_any img _ size h.imgLt
    (fun e => .fail e ∈ (v.run d ops).2.2.sched) space hs _ rfl fuel 0 (v.run d ops).2.1 (v.run d ops).2.2 []
    i1 i3 (i2.trans h3) (fun _ h => h) (by
      rw [List.length_drop, List.length_take]; omega)
  rw [restBytes_runOf] at g5 g7 g8
  refine ⟨r, v2, d2, got, g1, g5, ?_, ⟨fun hg => by rw [hg]; exact hl, fun hg => ?_⟩, g8⟩
  · rcases g7 with ⟨k1, k2⟩ | k
    · refine .inl ⟨k1, ?_⟩
      have := congrArg List.length k2
      rw [List.length_drop, List.length_take, List.length_nil] at this
      show _ ≤ v2.st.streamPosition
      omega
    · exact .inr k
  · exact (g5.trans (List.take_sublist _ _)).eq_of_length (by rw [hg]; exact hl.symm)

/-- The theorem applies to the value of `C69_interrupted_negation`. With little space at a time, only the bytes of
one call are lost, in the middle; the number of bytes tells. -/
example : ∃ v, NonRes.new 4 [0x11, 1, 1, 0x11, 1, 1] none 8 = .ok v ∧
    StoredAs 4 [0, 1, 2, 3, 4, 5, 6, 7, 8, 9, 10, 11] [0x11, 1, 1, 0x11, 1, 1]
      [⟨1, some 1⟩, ⟨1, some 2⟩] ∧
    (((Val.simple (.nonRes v)).attach ⟨[0, 1, 2, 3, 4, 5, 6, 7, 8, 9, 10, 11], 0,
      [.chunk 9, .chunk 9, .chunk 9, .chunk 9, .fail .interrupted]⟩).readToEnd (fun _ => 3) 20).1 = .ok () ∧
    (((Val.simple (.nonRes v)).attach ⟨[0, 1, 2, 3, 4, 5, 6, 7, 8, 9, 10, 11], 0,
      [.chunk 9, .chunk 9, .chunk 9, .chunk 9, .fail .interrupted]⟩).readToEnd (fun _ => 3) 20).2.2 =
      [4, 5, 6, 8, 9, 10, 11] := by
  refine ⟨_, rfl, ⟨by decide, ?_, by simp [Representable], by simp [NonZero, Extent.lcnAfter],
    by simp [InImage], by decide⟩, by decide +kernel, by decide +kernel⟩
  refine .run 0 1 1 _ _ _ ?_ (.run _ 1 1 _ _ _ ?_ (.atEnd _))
  · simp [WidthsOk, FitsSigned]
  · simp [WidthsOk, FitsSigned, Extent.lcnAfter]

end NT
