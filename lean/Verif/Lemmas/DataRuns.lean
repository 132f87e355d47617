import Verif.Model.DataRuns
import Verif.Spec.DataRuns
import Verif.Lemmas.Bytes

namespace NT

open Spec

/-- The shift pair is two's complement sign extension. -/
theorem signExtend_eq (bc raw : Nat) (hbc : bc ≤ 8) (hraw : raw < 256 ^ bc) :
    signExtend bc raw = if 2 * raw < 256 ^ bc then (raw : Int) else (raw : Int) - 256 ^ bc := by
  unfold signExtend
  simp only [BitVec.toInt_sshiftRight, BitVec.toInt_shiftLeft, BitVec.toNat_ofNat]
  have : bc = 0 ∨ bc = 1 ∨ bc = 2 ∨ bc = 3 ∨ bc = 4 ∨ bc = 5 ∨ bc = 6 ∨ bc = 7 ∨ bc = 8 := by omega
  rcases this with h | h | h | h | h | h | h | h | h <;> subst h <;>
    simp [Int.shiftRight_eq_div_pow, Nat.shiftLeft_eq, Int.bmod_def] at hraw ⊢ <;> omega

theorem pow256_pos (k : Nat) : (0 : Int) < 256 ^ k := Int.pow_pos (by omega)

theorem leNat_sleBytes (k : Nat) (z : Int) :
    leNat (sleBytes k z) = (z % (256 : Int) ^ k).toNat := by
  unfold sleBytes
  apply leNat_leBytes_of_lt
  have h1 := Int.emod_nonneg z (Int.ne_of_gt (pow256_pos k))
  have h2 := Int.emod_lt_of_pos z (pow256_pos k)
  have h3 : (256 : Int) ^ k = ((256 ^ k : Nat) : Int) := by simp
  omega

theorem signExtend_sleBytes (k : Nat) (z : Int) (hk : k ≤ 8) (hz : FitsSigned k z) :
    signExtend k (leNat (sleBytes k z)) = z := by
  rw [leNat_sleBytes]
  have h1 := Int.emod_nonneg z (Int.ne_of_gt (pow256_pos k))
  have h2 := Int.emod_lt_of_pos z (pow256_pos k)
  have h3 : (256 : Int) ^ k = ((256 ^ k : Nat) : Int) := by simp
  rw [signExtend_eq k _ hk (by omega)]
  unfold FitsSigned at hz
  by_cases h0 : 0 ≤ z
  · have : z % (256 : Int) ^ k = z := Int.emod_eq_of_lt h0 (by omega)
    rw [this, if_pos (by omega)]
    omega
  · have : z % (256 : Int) ^ k = z + 256 ^ k := by
      rw [← Int.add_emod_right]
      exact Int.emod_eq_of_lt (by omega) (by omega)
    rw [this, if_neg (by omega)]
    omega

@[simp] theorem sleBytes_length (k : Nat) (z : Int) : (sleBytes k z).length = k := by
  simp [sleBytes]

theorem readVarUnsigned_append (r : DataRuns) (b rest : Bytes) (h : b.length ≤ 8) :
    r.readVarUnsigned (b ++ rest) b.length = .ok (leNat b, rest) := by
  unfold DataRuns.readVarUnsigned DataRuns.readVarBytes
  rw [if_neg (by omega), if_pos (by simp)]
  simp

theorem readVarSigned_append (r : DataRuns) (b rest : Bytes) (h : b.length ≤ 8) :
    r.readVarSigned (b ++ rest) b.length = .ok (signExtend b.length (leNat b), rest) := by
  unfold DataRuns.readVarSigned DataRuns.readVarBytes
  rw [if_neg (by omega), if_pos (by simp)]
  simp

/-- The run that the iterator should yield for an extent. -/
def runOf (cs : Nat) (e : Extent) : DataRun :=
  { position := match e.lcn with
      | none => none
      | some l => some (l * cs)
    allocatedSize := e.count * cs
    streamPosition := 0 }

theorem checkedAdd_diff (prev l : Nat) (hl : l < U64) :
    Lcn.checkedAdd prev ((l : Int) - prev) = some l := by
  unfold Lcn.checkedAdd checkedAddU64 checkedSub negAsU64
  split
  · rw [if_pos (by omega)]; congr 1; omega
  · rw [if_pos (by omega)]; congr 1; omega

theorem next_encoded (r : DataRuns) (cb lb : Nat) (e : Extent) (rest : Bytes)
    (hd : r.data.drop r.state.offset = encodeRun cb lb r.state.previousLcn e ++ rest)
    (hw : WidthsOk cb lb r.state.previousLcn e) (hrep : Representable r.clusterSize e)
    (hcs : 0 < r.clusterSize) (hnz : ∀ l, e.lcn = some l → l ≠ 0 ∧ l ≠ r.state.previousLcn) :
    r.next = (some (.ok (runOf r.clusterSize e)),
      { r with state := ⟨r.state.offset + (encodeRun cb lb r.state.previousLcn e).length,
        e.lcnAfter r.state.previousLcn⟩ }) := by
  obtain ⟨h1, h2, h3, h4, h5⟩ := hw
  obtain ⟨hr1, hr2⟩ := hrep
  have hcount : leNat (leBytes cb e.count) = e.count := leNat_leBytes_of_lt h4
  have hmul : checkedMulU64 e.count r.clusterSize = some (e.count * r.clusterSize) := by
    simp only [checkedMulU64, if_pos hr1]
  obtain ⟨count, lcn⟩ := e
  cases lcn with
  | none =>
    simp only [encodeRun] at hd ⊢
    unfold DataRuns.next
    rw [hd]
    have hh : (UInt8.ofNat cb).toNat = cb := by simp; omega
    have hne : UInt8.ofNat cb ≠ 0 := by
      intro h; have := congrArg UInt8.toNat h; rw [hh] at this; simp at this; omega
    simp only [List.cons_append, if_neg hne, hh]
    have hm : cb % 16 = cb := by omega
    have hq : cb / 16 = 0 := by omega
    have hv := readVarUnsigned_append r (leBytes cb count) rest (by simp; omega)
    rw [leBytes_length] at hv
    have hs := readVarSigned_append r [] rest (by simp)
    simp only [List.length_nil, List.nil_append] at hs
    have hz : signExtend 0 (leNat []) = 0 := by
      rw [signExtend_eq 0 _ (by omega) (by simp [leNat])]; simp [leNat]
    simp only [hm, hq, hv, hs, hcount, hmul, if_neg (Nat.ne_of_gt h3), hz]
    simp [runOf, DataRun.new, Extent.lcnAfter]
    omega
  | some l =>
    obtain ⟨h6, h7, h8⟩ := h5
    obtain ⟨hl0, hlp⟩ := hnz l rfl
    have hlcs := hr2 l rfl
    have hl64 : l < U64 := Nat.lt_of_le_of_lt (Nat.le_mul_of_pos_right l hcs) hlcs
    simp only [encodeRun] at hd ⊢
    unfold DataRuns.next
    rw [hd]
    have hh : (UInt8.ofNat (16 * lb + cb)).toNat = 16 * lb + cb := by simp; omega
    have hne : UInt8.ofNat (16 * lb + cb) ≠ 0 := by
      intro h; have := congrArg UInt8.toNat h; rw [hh] at this; simp at this; omega
    simp only [List.cons_append, if_neg hne, hh, List.append_assoc]
    have hm : (16 * lb + cb) % 16 = cb := by omega
    have hq : (16 * lb + cb) / 16 = lb := by omega
    have hv := readVarUnsigned_append r (leBytes cb count)
      (sleBytes lb ((l : Int) - r.state.previousLcn) ++ rest) (by simp; omega)
    rw [leBytes_length] at hv
    have hs := readVarSigned_append r (sleBytes lb ((l : Int) - r.state.previousLcn)) rest
      (by simp; omega)
    rw [sleBytes_length, signExtend_sleBytes _ _ h7 h8] at hs
    have hvz : (l : Int) - r.state.previousLcn ≠ 0 := by omega
    have hpos : Lcn.position l r.clusterSize = .ok (some (l * r.clusterSize)) := by
      unfold Lcn.position checkedMulU64
      rw [if_pos hlcs]
      simp only [Pos.new]
      rw [if_neg (Nat.ne_of_gt (Nat.mul_pos (by omega) hcs))]
    simp only [hm, hq, hv, hs, hcount, hmul, if_neg (Nat.ne_of_gt h3), if_pos hvz,
      checkedAdd_diff _ _ hl64, hpos]
    simp [runOf, DataRun.new, Extent.lcnAfter]
    omega

/-- The iterator yields exactly these runs and then ends. -/
inductive Yields : DataRuns → List DataRun → Prop
  | done {r r' : DataRuns} : r.next = (none, r') → Yields r []
  | step {r r' : DataRuns} {x : DataRun} {xs : List DataRun} :
      r.next = (some (.ok x), r') → Yields r' xs → Yields r (x :: xs)

theorem yields_encoded (r : DataRuns) (es : List Extent)
    (henc : Encodes r.state.previousLcn es (r.data.drop r.state.offset))
    (hcs : 0 < r.clusterSize) (hrep : ∀ e ∈ es, Representable r.clusterSize e)
    (hnz : NonZero r.state.previousLcn es) :
    Yields r (es.map (runOf r.clusterSize)) := by
  induction es generalizing r with
  | nil =>
    generalize hx : r.data.drop r.state.offset = x at henc
    cases henc with
    | atEnd => exact .done (r' := r) (by simp [DataRuns.next, hx])
    | terminated rest => exact .done (by simp [DataRuns.next, hx]; rfl)
  | cons e es ih =>
    generalize hx : r.data.drop r.state.offset = x at henc
    cases henc with
    | run _ cb lb _ _ rest hw henc =>
      have hn := next_encoded r cb lb e _ hx hw (hrep e (by simp)) hcs hnz.1
      refine .step hn (ih _ ?_ hcs (fun e he => hrep e (by simp [he])) hnz.2)
      dsimp only
      rw [← List.drop_drop, hx, List.drop_left]
      exact henc

end NT
