import Verif.Lemmas.ReturnsOps
import Verif.Lemmas.Flaky
import Verif.Lemmas.Prog
import Verif.Props.C29_IndexPanics

/-! The rounds of a traversal of an index in which no node is below itself. -/

namespace NT

open Spec

/-- The entries of the node in `d` from `off` to `stop` have a subnode `v` among them. -/
inductive Spec.Points (d : Bytes) (stop : Nat) : Nat → Int → Prop
  | here {off len : Nat} {last : Bool} {v : Int} (h : off < stop) (hin : off + len ≤ d.length)
      (he : EntryHeader last (some v) (part d off len)) : Points d stop off v
  | later {off : Nat} {v : Int} (h : off < stop) (hin : off + 16 ≤ d.length) (hlen : 13 ≤ field d (off + 8) 2)
      (hn : field d (off + 12) 1 / 2 % 2 = 0) (hv : Points d stop (off + field d (off + 8) 2) v) : Points d stop off v

/-- The subnodes of a node. -/
def Spec.HasSubnode (n : NodeRanges) (v : Int) : Prop := Points n.data n.stop n.start v

/-- The bytes of a node that are left. -/
def NodeRanges.rest (n : NodeRanges) : Nat := n.stop - n.start

theorem NodeRanges.next_some {n n' : NodeRanges} {r : EntryRange} (hs : n.stop ≤ n.data.length)
    (h : n.next = (.ok (some r), n')) :
    n'.rest < n.rest ∧ n'.stop = n.stop ∧ n'.data = n.data ∧ (∀ v, HasSubnode n' v → HasSubnode n v) ∧
      ∀ last v, IndexEntries.inspect r n'.data = .ok (last, some v) → HasSubnode n v := by
  rw [NodeRanges.next_eq n hs] at h
  by_cases h0 : n.stop ≤ n.start
  · rw [if_pos h0] at h; cases congrArg Prod.fst h
  rw [if_neg h0] at h
  by_cases h1 : n.data.length < n.start + 16
  · rw [if_pos h1] at h; cases congrArg Prod.fst h
  rw [if_neg h1] at h
  by_cases h2 : n.data.length < n.start + field n.data (n.start + 8) 2
  · rw [if_pos h2] at h; cases congrArg Prod.fst h
  rw [if_neg h2] at h
  by_cases h3 : field n.data (n.start + 8) 2 < 10
  · rw [if_pos h3] at h; cases congrArg Prod.fst h
  rw [if_neg h3] at h
  by_cases h4 : field n.data (n.start + 8) 2 < 13
  · rw [if_pos h4] at h; cases congrArg Prod.fst h
  rw [if_neg h4] at h
  obtain ⟨hr, hn⟩ := Prod.mk.inj h
  cases hr
  have hinspect : ∀ last v, IndexEntries.inspect
      ⟨n.start, n.start + field n.data (n.start + 8) 2, n.position⟩ n.data = .ok (last, some v) → HasSubnode n v := by
    intro last v hi
    generalize hlen : field n.data (n.start + 8) 2 = len at *
    unfold IndexEntries.inspect EntryRange.toEntry at hi
    dsimp only at hi
    rw [idxRange_ok (by omega) (by omega), Res.bind_ok] at hi
    have e : n.start + len - n.start = len := by omega
    rw [e] at hi
    have hpl : (part n.data n.start len).length = len := part_length (by omega)
    change IEntry.new (part n.data n.start len) _ >>= _ = _ at hi
    have h8 : ∀ o k, o + k ≤ len → field (part n.data n.start len) o k = field n.data (n.start + o) k :=
      fun o k h => field_part h
    rw [IEntry.new_eq, hpl] at hi
    by_cases h16 : len < 16
    · rw [if_pos h16] at hi; cases hi
    rw [if_neg h16, h8 8 2 (by omega), hlen, if_neg (by omega), Res.bind_ok, List.take_of_length_le (by omega)] at hi
    rw [IEntry.isLast_eq (by dsimp only; omega), Res.bind_ok,
      IEntry.subnodeVcn_eq (by dsimp only; omega) (by dsimp only; rw [h8 8 2 (by omega), hlen, hpl])] at hi
    dsimp only at hi
    rw [hpl] at hi
    by_cases hb : field (part n.data n.start len) 12 1 % 2 = 1
    case neg => rw [if_neg hb] at hi; cases hi
    rw [if_pos hb] at hi
    by_cases h24 : 24 ≤ len
    case neg => rw [if_neg h24] at hi; cases hi
    rw [if_pos h24] at hi
    cases hi
    refine .here (len := len) (last := field (part n.data n.start len) 12 1 / 2 % 2 == 1) (by omega) (by omega)
      ⟨by rw [hpl]; exact h24, by rw [h8 8 2 (by omega), hlen, hpl], ?_, ?_⟩
    · cases hl : field (part n.data n.start len) 12 1 / 2 % 2 == 1 <;>
        simp only [beq_iff_eq, beq_eq_false_iff_ne, Option.isSome_some, if_true, Bool.false_eq_true, if_false] at * <;>
        omega
    · intro v hv
      cases hv
      rw [hpl]
      exact intAt_toI64 (by rw [hpl]; omega)
  by_cases hl : field n.data (n.start + 12) 1 / 2 % 2 = 1
  · rw [if_pos hl] at hn
    subst hn
    refine ⟨?_, rfl, rfl, ?_, hinspect⟩
    · unfold NodeRanges.rest
      dsimp only
      omega
    · intro v hv
      cases hv with
      | here h _ _ => dsimp only at h; omega
      | later h _ _ _ _ => dsimp only at h; omega
  · rw [if_neg hl] at hn
    subst hn
    refine ⟨?_, rfl, rfl, ?_, hinspect⟩
    · unfold NodeRanges.rest
      dsimp only
      omega
    · intro v hv
      exact .later (by omega) (by omega) (by omega) (by omega) hv

/-! ### Going down -/

/-- How many rounds a node with fewer than `k` levels below it can take per byte, if nodes have at most `B` bytes. -/
def nodeCost (B : Nat) : Nat → Nat
  | 0 => 1
  | k + 1 => B * nodeCost B k + 2

theorem nodeCost_pos (B k : Nat) : 1 ≤ nodeCost B k := by
  cases k with
  | zero => exact Nat.le_refl _
  | succ k => unfold nodeCost; omega

theorem nodeCost_mono {B : Nat} (hB : 1 ≤ B) {j k : Nat} (h : j < k) : B * nodeCost B j + 2 ≤ nodeCost B k := by
  induction k with
  | zero => omega
  | succ k ih =>
    have he : nodeCost B (k + 1) = B * nodeCost B k + 2 := rfl
    rw [he]
    by_cases hj : j = k
    · subst hj
      exact Nat.le_refl _
    · have h1 := ih (by omega)
      have h2 : 1 * nodeCost B k ≤ B * nodeCost B k := Nat.mul_le_mul_right _ hB
      omega

/-- The nodes of a traversal and a bound for the rounds that it still takes. `S` are the VCNs that can be met. -/
inductive Frames (S : Int → Prop) (rank : Int → Nat) (B : Nat) : List NodeRanges → Nat → Prop
  | nil : Frames S rank B [] 0
  | cons {n : NodeRanges} {below : List NodeRanges} {k m : Nat} (hs : n.stop ≤ n.data.length)
      (h : ∀ v, HasSubnode n v → S v ∧ rank v < k) (hb : Frames S rank B below m) :
      Frames S rank B (n :: below) (n.rest * nodeCost B k + 1 + m)

/-- What going down to a subnode does. -/
structure Descends (ix : Index) (P : Dev → Prop) (S : Int → Prop) (rank : Int → Nat) (B : Nat) : Prop where
  size : 1 ≤ B
  back : ∀ v d, (ix.subnode v d).1.Returns
  down : ∀ v d sub d', S v → P d → ix.subnode v d = (.ok sub, d') →
    P d' ∧ sub.stop ≤ sub.data.length ∧ sub.rest ≤ B ∧ ∀ w, HasSubnode sub w → S w ∧ rank w < rank v

variable {ix : Index} {P : Dev → Prop} {S : Int → Prop} {rank : Int → Nat} {B : Nat}

theorem IndexEntries.loop_ends (H : Descends ix P S rank B) (fuel m : Nat) (it : IndexEntries) (d : Dev)
    (hit : Frames S rank B it.inner m) (hd : P d) (hf : m < fuel) :
    (IndexEntries.loop ix fuel (it, d)).1.Returns ∧
      ∃ m', Frames S rank B (IndexEntries.loop ix fuel (it, d)).2.1.inner m' ∧ m' ≤ m ∧
        ∀ r, (IndexEntries.loop ix fuel (it, d)).1 = .ok (some r) → m' < m := by
  induction fuel generalizing m it d with
  | zero => omega
  | succ fuel ih =>
    obtain ⟨inner, following⟩ := it
    unfold IndexEntries.loop
    dsimp only at hit ⊢
    cases hit with
    | nil => exact ⟨.ok _, 0, .nil, Nat.le_refl _, fun r h => by cases h⟩
    | @cons n below k m hs hn hb =>
      have hr := n.next_returns
      have hsome := fun n' r => NodeRanges.next_some (n := n) (n' := n') (r := r) hs
      have herr : ∀ x n', n.next = (.err x, n') → n' = n := by
        intro x n' h
        unfold NodeRanges.next at h
        split at h
        · cases congrArg Prod.fst h
        · split at h <;> first | exact (Prod.mk.inj h).2.symm | cases congrArg Prod.fst h
      have hpan : ∀ x n', n.next = (.panic x, n') → n' = n := by
        intro x n' h
        unfold NodeRanges.next at h
        split at h
        · cases congrArg Prod.fst h
        · split at h <;> first | exact (Prod.mk.inj h).2.symm | cases congrArg Prod.fst h
      dsimp only
      generalize n.next = q at hr hsome herr hpan ⊢
      obtain ⟨x, n'⟩ := q
      cases x with
      | ok o =>
        cases o with
        | none =>
          cases following with
          | nil => exact ⟨.ok _, m, hb, by omega, fun r h => by cases h⟩
          | cons o rest =>
            cases o with
            | some r => exact ⟨.ok _, m, hb, by omega, fun r h => by omega⟩
            | none =>
              dsimp only
              obtain ⟨i1, m', i2, i3, i4⟩ := ih m ⟨below, rest⟩ d hb hd (by omega)
              exact ⟨i1, m', i2, by omega, fun r h => by omega⟩
        | some r =>
          obtain ⟨s1, s2, s3, s4, s5⟩ := hsome n' r rfl
          have hk := nodeCost_pos B k
          have hlt : n'.rest * nodeCost B k + nodeCost B k ≤ n.rest * nodeCost B k := by
            rw [← Nat.succ_mul]
            exact Nat.mul_le_mul_right _ s1
          have hn' : Frames S rank B (n' :: below) (n'.rest * nodeCost B k + 1 + m) :=
            .cons (by rw [s2, s3]; exact hs) (fun v hv => hn v (s4 v hv)) hb
          dsimp only
          have hir := IndexEntries.inspect_returns r n'.data
          generalize hi : IndexEntries.inspect r n'.data = x at hir ⊢
          cases x with
          | ok y =>
            obtain ⟨last, o⟩ := y
            cases o with
            | none =>
              dsimp only
              split
              · obtain ⟨i1, m', i2, i3, i4⟩ := ih _ ⟨n' :: below, following⟩ d hn' hd (by omega)
                exact ⟨i1, m', i2, by omega, fun r h => by omega⟩
              · exact ⟨.ok _, _, hn', by omega, fun r h => by omega⟩
            | some v =>
              obtain ⟨hv1, hv2⟩ := hn v (s5 last v hi)
              have hb1 := H.back v d
              have hdown := fun sub d' => H.down v d sub d' hv1 hd
              dsimp only
              generalize ix.subnode v d = q at hb1 hdown ⊢
              obtain ⟨x, d'⟩ := q
              cases x with
              | ok sub =>
                obtain ⟨g1, g2, g3, g4⟩ := hdown sub d' rfl
                have hc := nodeCost_mono H.size hv2
                have hsub : sub.rest * nodeCost B (rank v) ≤ B * nodeCost B (rank v) := Nat.mul_le_mul_right _ g3
                dsimp only
                obtain ⟨i1, m', i2, i3, i4⟩ := ih _ ⟨sub :: n' :: below, (if last then none else some r) :: following⟩ d'
                  (.cons g2 g4 hn') g1 (by omega)
                exact ⟨i1, m', i2, by omega, fun r h => by have := i4 r h; omega⟩
              | err x => exact ⟨.err _, _, hn', by omega, fun r h => by cases h⟩
              | panic x => exact ⟨.panic _, _, hn', by omega, fun r h => by cases h⟩
              | diverge => exact absurd rfl hb1
          | err x => exact ⟨.err _, _, hn', by omega, fun r h => by cases h⟩
          | panic x => exact ⟨.panic _, _, hn', by omega, fun r h => by cases h⟩
          | diverge => exact absurd rfl hir
      | err x =>
        have := herr x n' rfl
        subst this
        exact ⟨.err _, _, .cons hs hn hb, Nat.le_refl _, fun r h => by cases h⟩
      | panic x =>
        have := hpan x n' rfl
        subst this
        exact ⟨.panic _, _, .cons hs hn hb, Nat.le_refl _, fun r h => by cases h⟩
      | diverge => exact absurd rfl hr

theorem IndexEntries.next_ends (H : Descends ix P S rank B) (fuel m : Nat) (it : IndexEntries) (d : Dev)
    (hit : Frames S rank B it.inner m) (hd : P d) (hf : m < fuel) :
    (IndexEntries.next ix fuel (it, d)).1.Returns ∧
      ∃ m', Frames S rank B (IndexEntries.next ix fuel (it, d)).2.1.inner m' ∧ m' ≤ m ∧
        ∀ e, (IndexEntries.next ix fuel (it, d)).1 = .ok (some e) → m' < m := by
  obtain ⟨h1, m', h2, h3, h4⟩ := IndexEntries.loop_ends H fuel m it d hit hd hf
  unfold IndexEntries.next
  generalize IndexEntries.loop ix fuel (it, d) = q at h1 h2 h4 ⊢
  obtain ⟨x, s⟩ := q
  cases x with
  | ok o =>
    cases o with
    | none => exact ⟨.ok _, m', h2, h3, fun e h => by cases h⟩
    | some r =>
      have hr : (IndexEntries.entryOf r s.1).Returns := by
        unfold IndexEntries.entryOf
        split
        · exact .panic _
        · exact EntryRange.toEntry_returns _ _
      dsimp only
      generalize IndexEntries.entryOf r s.1 = y at hr ⊢
      cases y with
      | ok e => exact ⟨.ok _, m', h2, h3, fun _ _ => h4 r rfl⟩
      | err x => exact ⟨.err _, m', h2, h3, fun e h => by cases h⟩
      | panic x => exact ⟨.panic _, m', h2, h3, fun e h => by cases h⟩
      | diverge => exact absurd rfl hr
  | err x => exact ⟨.err _, m', h2, h3, fun e h => by cases h⟩
  | panic x => exact ⟨.panic _, m', h2, h3, fun e h => by cases h⟩
  | diverge => exact absurd rfl h1

theorem IEntry.isLast_of_subnodeVcn (e : IEntry) {o : Option Int} (h : e.subnodeVcn = .ok o) :
    ∃ last, e.isLast = .ok last := by
  obtain ⟨_, hb, _⟩ := Res.bind_eq_ok.1 h
  obtain ⟨f, hf, _⟩ := Res.bind_eq_ok.1 hb
  exact ⟨_, Res.bind_eq_ok.2 ⟨f, hf, rfl⟩⟩

theorem Index.findLoop_returns {κ : Type} {key : Bytes → Pos → Res κ} {cmp : κ → Res Ordering}
    (hk : ∀ b p, (key b p).Returns) (hc : ∀ x, (cmp x).Returns) (H : Descends ix P S rank B) (fuel m : Nat)
    (n : NodeRanges) (d : Dev) (hn : Frames S rank B [n] m) (hd : P d) (hf : m < fuel) :
    (Index.findLoop key cmp ix fuel n d).1.Returns := by
  induction fuel generalizing m n d with
  | zero => omega
  | succ fuel ih =>
    simp only [Index.findLoop]
    cases hn with
    | @cons n below k m hs hn hb =>
      have hr := n.next_returns
      have hsome := fun n' r => NodeRanges.next_some (n := n) (n' := n') (r := r) hs
      generalize n.next = q at hr hsome ⊢
      obtain ⟨x, n'⟩ := q
      cases x with
      | ok o =>
        cases o with
        | none => exact .ok _
        | some r =>
          obtain ⟨s1, s2, s3, s4, s5⟩ := hsome n' r rfl
          have hk1 := nodeCost_pos B k
          have hlt : n'.rest * nodeCost B k + nodeCost B k ≤ n.rest * nodeCost B k := by
            rw [← Nat.succ_mul]
            exact Nat.mul_le_mul_right _ s1
          have hn' : Frames S rank B [n'] (n'.rest * nodeCost B k + 1 + m) :=
            .cons (by rw [s2, s3]; exact hs) (fun v hv => hn v (s4 v hv)) hb
          dsimp only
          have he := EntryRange.toEntry_returns r n'.data
          cases hte : r.toEntry n'.data with
          | ok e =>
            dsimp only
            have hj := Index.judge_returns hk hc e
            generalize Index.judge key cmp e = y at hj ⊢
            cases y with
            | ok o =>
              cases o with
              | some b =>
                cases b with
                | true => exact .bind (.ok _) fun _ _ => .ok _
                | false => exact ih _ n' d hn' hd (by omega)
              | none =>
                dsimp only
                have hv := e.subnodeVcn_returns
                cases hsv : e.subnodeVcn with
                | ok o =>
                  cases o with
                  | none => exact .ok _
                  | some v =>
                    have hl : ∃ last, IndexEntries.inspect r n'.data = .ok (last, some v) := by
                      obtain ⟨last, hl⟩ := e.isLast_of_subnodeVcn hsv
                      exact ⟨last, Res.bind_eq_ok.2 ⟨e, hte, Res.bind_eq_ok.2 ⟨last, hl, Res.bind_eq_ok.2 ⟨_, hsv, rfl⟩⟩⟩⟩
                    obtain ⟨last, hl⟩ := hl
                    obtain ⟨hv1, hv2⟩ := hn v (s5 last v hl)
                    have hb1 := H.back v d
                    have hdown := fun sub d' => H.down v d sub d' hv1 hd
                    dsimp only
                    generalize ix.subnode v d = q at hb1 hdown ⊢
                    obtain ⟨x, d'⟩ := q
                    cases x with
                    | ok sub =>
                      obtain ⟨g1, g2, g3, g4⟩ := hdown sub d' rfl
                      have hc := nodeCost_mono H.size hv2
                      have hsub : sub.rest * nodeCost B (rank v) ≤ B * nodeCost B (rank v) :=
                        Nat.mul_le_mul_right _ g3
                      exact ih _ sub d' (.cons g2 g4 hb) g1 (by omega)
                    | err x => exact .err _
                    | panic x => exact .panic _
                    | diverge => exact absurd rfl hb1
                | err x => exact .err _
                | panic x => exact .panic _
                | diverge => exact absurd hsv hv
            | err x => exact .err _
            | panic x => exact .panic _
            | diverge => exact absurd rfl hj
          | err x => exact .err _
          | panic x => exact .panic _
          | diverge => exact absurd hte he
      | err x => exact .err _
      | panic x => exact .panic _
      | diverge => exact absurd rfl hr

end NT
