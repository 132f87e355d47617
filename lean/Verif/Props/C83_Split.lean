import Verif.Props.C84_Compressed
import Verif.Props.C86_Parts

/-! C83 and C84 for values that are split over several records. The initialised size, the flags and the compression unit
are those of the first part, which is the attribute through which the value is opened. -/

namespace NT

open Spec

/-- **C83, partial**: the exact law of the code for a value that is split over several records: it reads as the bytes of
the clusters of its parts, and that is right if and only if they hold zeros beyond the initialised part.

Full claim: as for `C83_exact_partial`. -/
theorem C83_split_partial {a : Attr} {img : Bytes} {parts : List Part} {size init : Nat} (h : PartsAt a img parts size)
    (_ : field a.recordData (a.offset + 56) 8 = init) :
    a.Opens img ((content a.file.ntfs.clusterSize img (parts.flatMap Part.es)).take size) size ∧
      (a.Opens img (initialised ((content a.file.ntfs.clusterSize img (parts.flatMap Part.es)).take size) init) size ↔
        ∀ i x, init ≤ i →
          ((content a.file.ntfs.clusterSize img (parts.flatMap Part.es)).take size)[i]? = some x → x = 0) := by
  refine ⟨h.opens, fun h' => (initialised_eq_iff _ _).1 (h.opens.unique h').1, fun hz => ?_⟩
  rw [← (initialised_eq_iff _ _).2 hz]
  exact h.opens

/-- **C84, partial**: the exact law of the code for a compressed value that is split over several records.

Full claim: as for `C84_exact_partial`. -/
theorem C84_split_partial {a : Attr} {img : Bytes} {parts : List Part} {size : Nat} {us : List (List (Option Nat))}
    (h : PartsAt a img parts size) (_ : field a.recordData (a.offset + 12) 2 % 2 = 1)
    (hu : Pieces (2 ^ field a.recordData (a.offset + 34) 1) (clusters (parts.flatMap Part.es)) us) :
    (a.Opens img (decompressed a.file.ntfs.clusterSize img us size) size ↔
      (content a.file.ntfs.clusterSize img (parts.flatMap Part.es)).take size =
        decompressed a.file.ntfs.clusterSize img us size) ∧
    ((∀ u ∈ us, ¬ Mixed u) → a.Opens img (decompressed a.file.ntfs.clusterSize img us size) size) := by
  have e : (∀ u ∈ us, ¬ Mixed u) → (content a.file.ntfs.clusterSize img (parts.flatMap Part.es)).take size =
      decompressed a.file.ntfs.clusterSize img us size := by
    intro hm
    unfold decompressed
    rw [content_clusters, ← hu.flatten]
    congr 1
    clear hu
    induction us with
    | nil => rfl
    | cons u us ih =>
      rw [List.flatten_cons, List.flatMap_append, List.flatMap_cons, ih fun v hv => hm v (List.mem_cons_of_mem _ hv)]
      exact congrArg (· ++ _) (if_neg (hm u List.mem_cons_self)).symm
  exact ⟨⟨fun h' => (h.opens.unique h').1, fun e => e ▸ h.opens⟩, fun hm => e hm ▸ h.opens⟩

/-! ### An example -/

/-- `exBaseImage` with another record 2: its attribute has the flag for compression, a size of 50 bytes and an initialised
size of 10. -/
def exInitImage : Bytes :=
  overwrite (overwrite exBaseImage 532 [1, 0]) 568 [50, 0, 0, 0, 0, 0, 0, 0, 10, 0, 0, 0, 0, 0, 0, 0]

/-- A record of `exInitImage`. -/
def exInitFile (n : Nat) : NFile :=
  ⟨exBaseNtfs, ⟨(exInitImage.drop (64 + 200 * n)).take 200, some (64 + 200 * n)⟩, n⟩

set_option maxRecDepth 20000 in
theorem exInitRuns (n l lcn : Nat) (h : (n, l, lcn) ∈ [(0, 10, 1), (2, 1, 13)]) :
    StoredAs exBaseNtfs.clusterSize exInitImage
      (((exInitFile n).recordData.drop (56 + 64)).take (72 - 64)) [⟨l, some lcn⟩] := by
  have hlen : exInitImage.length = 896 := by decide +kernel
  have hb : List.take (72 - 64) (List.drop (56 + 64) (exInitFile n).recordData) =
      [0x11, UInt8.ofNat l, UInt8.ofNat lcn, 0, 0, 0, 0, 0] := by
    simp only [List.mem_cons, Prod.mk.injEq, List.not_mem_nil, or_false] at h
    rcases h with ⟨rfl, rfl, rfl⟩ | ⟨rfl, rfl, rfl⟩ <;> decide +kernel
  rw [hb]
  have hl : 0 < l ∧ l < 11 ∧ 0 < lcn ∧ lcn < 14 ∧ lcn + l ≤ 14 := by
    simp only [List.mem_cons, Prod.mk.injEq, List.not_mem_nil, or_false] at h
    omega
  refine oneRun_stored exBaseNtfs.clusterSize exInitImage l lcn [0, 0, 0, 0] (by decide) (by omega)
    (by omega) (by omega) (by omega) ?_ (by rw [hlen]; decide)
  rw [hlen]
  have : (lcn + l) * 64 ≤ 14 * 64 := Nat.mul_le_mul_right 64 hl.2.2.2.2
  exact this

/-- The part in record 2. -/
def exInitPart : Part :=
  { entry := exBaseEntry 0 2 0, file := exInitFile 2, pre := [], off := 56, len := 72, start := 64, es := [⟨1, some 13⟩] }

def exInitList : AttrList := .resident ((exBaseEntry 0 2 0).encode [] ++ []) none

def exInit : Attr := ⟨exInitFile 2, 56, some exInitList⟩

set_option maxRecDepth 20000 in
theorem exInit_parts : PartsAt exInit exInitImage [exInitPart] 50 where
  list := by
    refine ⟨exInitFile 0, [⟨10, some 1⟩], [], 56, 72, 64, 0, .data, [], _, exInitList,
      { mftPos := ⟨64, rfl, by decide +kernel, by decide +kernel⟩
        sizePos := by decide
        chain := .nil 56
        attr := ⟨by decide +kernel, by decide +kernel, by decide +kernel, by decide +kernel⟩
        first := by simp
        ty := by decide +kernel
        nonRes := by decide +kernel
        header := by decide +kernel
        runsAt := by decide +kernel
        runsIn := by decide
        runs := exInitRuns 0 10 1 (by simp) }, fun p hp => ?_, (fun e he => nomatch he),
      .cons (exBaseEntry 0 2 0) [] [] []
        ⟨by decide, by decide, by decide, by decide, by decide, by decide⟩ (by decide) .nil, rfl, rfl,
      by decide +kernel, by decide +kernel⟩
    rw [List.mem_singleton] at hp
    subst hp
    exact ⟨rfl, rfl, by decide, ⟨464, by decide +kernel, by decide +kernel, by decide +kernel⟩, .nil 56,
      ⟨by decide +kernel, by decide +kernel, by decide +kernel, by decide +kernel⟩, by simp [exInitPart],
      by decide +kernel, by decide +kernel, by decide +kernel, by decide, by decide +kernel, by decide,
      exInitRuns 2 1 13 (by simp), by simp [exInitPart]⟩
  some_ := List.cons_ne_nil _ _
  header := by decide +kernel
  nonRes := by decide +kernel
  size := by decide +kernel

set_option maxRecDepth 20000 in
/-- Of the 50 bytes, 10 are initialised. The other 40 are not read as zeros. -/
example : ¬ exInit.Opens exInitImage (initialised (List.replicate 50 0xBB) 10) 50 := by
  intro h
  have e : (content exInit.file.ntfs.clusterSize exInitImage ([exInitPart].flatMap Part.es)).take 50 =
      List.replicate 50 0xBB := by decide +kernel
  have := (C83_split_partial exInit_parts (init := 10) (by decide +kernel)).2.1
  rw [e] at this
  exact absurd (this h 10 0xBB (by decide) (by decide)) (by decide)

set_option maxRecDepth 20000 in
/-- The value has the flag for compression; no unit is compressed. -/
example : exInit.Opens exInitImage (List.replicate 50 0xBB) 50 := by
  have h := (C84_split_partial exInit_parts (us := [[some 13]]) (by decide +kernel)
    (.last _ (List.cons_ne_nil _ _) (by decide +kernel))).2 (by decide)
  have e : decompressed exInit.file.ntfs.clusterSize exInitImage [[some 13]] 50 = List.replicate 50 0xBB := by
    decide +kernel
  rwa [e] at h

end NT
