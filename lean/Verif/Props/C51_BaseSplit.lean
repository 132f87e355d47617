import Verif.Props.C23_Flatten

/-! C51: a value that starts in the base record and continues in another record. -/

namespace NT

open Spec

/-- C51, what holds instead: a non-resident attribute of the base record is always shown with the
runs of this one attribute only, whatever an attribute list says. -/
theorem C51_own_runs_only_partial (ntfs : Ntfs) (img : Bytes) (f : NFile) (hf : f.ntfs = ntfs) (off len start size : Nat)
    (es : List Extent) (i : AttrItem) (hi : Res.ok (some i) = ownItem f off)
    (ha : AttrAt f.recordData off len) (hnr : field f.recordData (off + 8) 1 ≠ 0) (h56 : 56 ≤ len)
    (hst : field f.recordData (off + 32) 2 = start) (hin : start ≤ len)
    (hruns : StoredAs ntfs.clusterSize img ((f.recordData.drop (off + start)).take (len - start)) es)
    (hs : field f.recordData (off + 48) 8 = size) (d : Dev) (hd : d.NoFail) (him : d.img = img)
    (ops : List Op) (hops : ∀ op ∈ ops, op.InRange) :
    ∃ a v, i.toAttribute = .ok a ∧ a.value d = (.ok (.simple (.nonRes v)), d) ∧ v.len = size ∧
      (v.run d ops).1 = (Flat.run
        { content := (content ntfs.clusterSize img es).take size, len := size, pos := 0 } ops).1 := by
  have hlen := ha.length
  have hai := ha.inside
  have hmin := ha.header
  injection hi with hi
  injection hi with hi
  subst hi
  have hHI : (Attr.mk f off none).HeaderIn := by
    unfold Attr.HeaderIn; simp only [Attr.recordData]; omega
  have hrv := Attr.nonResidentValue_eq hHI hnr (by simp only [Attr.recordData]; omega) start len
    hst ha.length hai
  rw [if_neg (by omega)] at hrv
  simp only [Attr.recordData, hf, hs] at hrv
  have hsize : size < U64 := by
    rw [← hs]
    exact field_lt (d := f.recordData) (a := off + 48) (n := 8) (by omega)
  obtain ⟨v, h1, h2, _⟩ := C01_flat_file ntfs.clusterSize img _ es (Pos.add f.position (off + start)) size
    hruns hsize d hd him ops hops
  obtain ⟨v', g1, _, g3, _⟩ := NonRes.new_good hruns (Pos.add f.position (off + start)) size hsize
  rw [h1] at g1
  injection g1 with g1
  subst g1
  rw [h1] at hrv
  refine ⟨⟨f, off, none⟩, v, ?_, ?_, g3, h2⟩
  · refine Attr.new_ok_iff.2 ⟨rfl, hHI, ?_, ?_⟩
    · simp only [Attr.recordData]; omega
    · simp only [Attr.recordData]; omega
  · unfold Attr.value
    dsimp only
    have hsv : (Attr.mk f off none).simpleValue = .ok (.nonRes v) := by
      unfold Attr.simpleValue
      rw [Attr.isResident_eq hHI, hrv]
      have : (field f.recordData (off + 8) 1 == 0) = false := by simpa using hnr
      simp only [Attr.recordData, this]
      rfl
    rw [hsv]
    rfl

/-- One run of `l` clusters at cluster `lcn`, encoded with single bytes. -/
theorem oneRun_stored (cs : Nat) (img : Bytes) (l lcn : Nat) (rest : Bytes) (hcs : 0 < cs) (h1 : 0 < l)
    (h2 : l < 256) (h3 : 0 < lcn) (h4 : lcn < 128) (hin : (lcn + l) * cs ≤ img.length)
    (hlt : img.length < U64) :
    StoredAs cs img (0x11 :: UInt8.ofNat l :: UInt8.ofNat lcn :: 0 :: rest) [⟨l, some lcn⟩] := by
  have hmul : (lcn + l) * cs = lcn * cs + l * cs := Nat.add_mul _ _ _
  refine ⟨hcs, ?_, ?_, ?_, ?_, hlt⟩
  · have := Encodes.run 0 1 1 ⟨l, some lcn⟩ [] (0 :: rest)
      ⟨by omega, by omega, h1, by simpa using h2, by omega, by omega, by
        unfold FitsSigned; constructor <;> omega⟩ (.terminated _ _)
    have e1 : l % 256 = l := Nat.mod_eq_of_lt h2
    have e2 : ((lcn : Int) % 256).toNat % 256 = lcn := by omega
    simpa [encodeRun, leBytes, sleBytes, e1, e2] using this
  · intro e he
    simp only [List.mem_cons, List.not_mem_nil, or_false] at he
    subst he
    refine ⟨by dsimp only; omega, ?_⟩
    rintro _ ⟨⟩
    omega
  · refine ⟨?_, trivial⟩
    rintro _ ⟨⟩
    omega
  · intro e he x hx
    simp only [List.mem_cons, List.not_mem_nil, or_false] at he
    subst he
    injection hx with hx
    subst hx
    dsimp only
    omega

/-- An image with clusters of 64 bytes and records of 200 bytes: the MFT is clusters 1-10. Record 1 has
an attribute list (in cluster 11) and the first cluster (12) of its $DATA value of 128 bytes; the
second cluster (13) of this value is in an attribute of record 2. -/
def exBaseImage : Bytes :=
  List.replicate 64 0 ++
  [70, 73, 76, 69, 48, 0, 1, 0, 0, 0, 0, 0, 0, 0, 0, 0,
   1, 0, 1, 0, 56, 0, 1, 0, 200, 0, 0, 0, 200, 0, 0, 0,
   0, 0, 0, 0, 0, 0, 0, 0, 3, 0, 0, 0, 0, 0, 0, 0,
   0, 0, 0, 0, 0, 0, 0, 0, 128, 0, 0, 0, 72, 0, 0, 0,
   1, 0, 0, 0, 0, 0, 1, 0, 0, 0, 0, 0, 0, 0, 0, 0,
   3, 0, 0, 0, 0, 0, 0, 0, 64, 0, 0, 0, 0, 0, 0, 0,
   0, 1, 0, 0, 0, 0, 0, 0, 88, 0, 0, 0, 0, 0, 0, 0,
   0, 0, 0, 0, 0, 0, 0, 0, 17, 10, 1, 0, 0, 0, 0, 0,
   255, 255, 255, 255, 0, 0, 0, 0, 0, 0, 0, 0, 0, 0, 0, 0,
   0, 0, 0, 0, 0, 0, 0, 0, 0, 0, 0, 0, 0, 0, 0, 0,
   0, 0, 0, 0, 0, 0, 0, 0, 0, 0, 0, 0, 0, 0, 0, 0,
   0, 0, 0, 0, 0, 0, 0, 0, 0, 0, 0, 0, 0, 0, 0, 0,
   0, 0, 0, 0, 0, 0, 0, 0] ++
  [70, 73, 76, 69, 48, 0, 1, 0, 0, 0, 0, 0, 0, 0, 0, 0,
   1, 0, 1, 0, 56, 0, 1, 0, 200, 0, 0, 0, 200, 0, 0, 0,
   0, 0, 0, 0, 0, 0, 0, 0, 3, 0, 0, 0, 0, 0, 0, 0,
   0, 0, 0, 0, 0, 0, 0, 0, 32, 0, 0, 0, 72, 0, 0, 0,
   1, 0, 0, 0, 0, 0, 1, 0, 0, 0, 0, 0, 0, 0, 0, 0,
   3, 0, 0, 0, 0, 0, 0, 0, 64, 0, 0, 0, 0, 0, 0, 0,
   0, 1, 0, 0, 0, 0, 0, 0, 52, 0, 0, 0, 0, 0, 0, 0,
   0, 0, 0, 0, 0, 0, 0, 0, 17, 1, 11, 0, 0, 0, 0, 0,
   128, 0, 0, 0, 72, 0, 0, 0, 1, 0, 0, 0, 0, 0, 2, 0,
   0, 0, 0, 0, 0, 0, 0, 0, 3, 0, 0, 0, 0, 0, 0, 0,
   64, 0, 0, 0, 0, 0, 0, 0, 0, 1, 0, 0, 0, 0, 0, 0,
   128, 0, 0, 0, 0, 0, 0, 0, 0, 0, 0, 0, 0, 0, 0, 0,
   17, 1, 12, 0, 0, 0, 0, 0] ++
  [70, 73, 76, 69, 48, 0, 1, 0, 0, 0, 0, 0, 0, 0, 0, 0,
   1, 0, 1, 0, 56, 0, 1, 0, 200, 0, 0, 0, 200, 0, 0, 0,
   0, 0, 0, 0, 0, 0, 0, 0, 3, 0, 0, 0, 0, 0, 0, 0,
   0, 0, 0, 0, 0, 0, 0, 0, 128, 0, 0, 0, 72, 0, 0, 0,
   1, 0, 0, 0, 0, 0, 0, 0, 0, 0, 0, 0, 0, 0, 0, 0,
   3, 0, 0, 0, 0, 0, 0, 0, 64, 0, 0, 0, 0, 0, 0, 0,
   0, 1, 0, 0, 0, 0, 0, 0, 0, 0, 0, 0, 0, 0, 0, 0,
   0, 0, 0, 0, 0, 0, 0, 0, 17, 1, 13, 0, 0, 0, 0, 0,
   255, 255, 255, 255, 0, 0, 0, 0, 0, 0, 0, 0, 0, 0, 0, 0,
   0, 0, 0, 0, 0, 0, 0, 0, 0, 0, 0, 0, 0, 0, 0, 0,
   0, 0, 0, 0, 0, 0, 0, 0, 0, 0, 0, 0, 0, 0, 0, 0,
   0, 0, 0, 0, 0, 0, 0, 0, 0, 0, 0, 0, 0, 0, 0, 0,
   0, 0, 0, 0, 0, 0, 0, 0] ++
  List.replicate 40 0 ++
  [128, 0, 0, 0, 26, 0, 0, 26, 0, 0, 0, 0, 0, 0, 0, 0,
   1, 0, 0, 0, 0, 0, 1, 0, 2, 0, 128, 0, 0, 0, 26, 0,
   0, 26, 1, 0, 0, 0, 0, 0, 0, 0, 2, 0, 0, 0, 0, 0,
   1, 0, 0, 0] ++
  List.replicate 12 0 ++ List.replicate 64 0xAA ++ List.replicate 64 0xBB

/-- The volume of `exBaseImage`. -/
def exBaseNtfs : Ntfs :=
  { clusterSize := 64, sectorSize := 64, size := 896, mftPosition := some 64,
    fileRecordSize := 200, serialNumber := 0, upcaseTable := none }

/-- A record of `exBaseImage`. -/
def exBaseFile (n : Nat) : NFile :=
  ⟨exBaseNtfs, ⟨(exBaseImage.drop (64 + 200 * n)).take 200, some (64 + 200 * n)⟩, n⟩

/-- The entries of the list: $DATA of record 1 from VCN 0, $DATA of record 2 from VCN 1. -/
def exBaseEntry (vcn : Int) (n inst : Nat) : LEntry := ⟨0x80, vcn, n + 2 ^ 48, inst, []⟩

set_option maxRecDepth 20000 in
theorem exBaseLen : exBaseImage.length = 896 := by decide

set_option maxRecDepth 20000 in
/-- The data runs in the example: one run at the end of an attribute of 72 bytes. -/
theorem exBaseRuns (n off l lcn : Nat) (h : (n, off, l, lcn) ∈
      [(0, 56, 10, 1), (1, 56, 1, 11), (1, 128, 1, 12), (2, 56, 1, 13)]) :
    StoredAs exBaseNtfs.clusterSize exBaseImage
      (((exBaseFile n).recordData.drop (off + 64)).take (72 - 64)) [⟨l, some lcn⟩] := by
  have hb : List.take (72 - 64) (List.drop (off + 64) (exBaseFile n).recordData) =
      [0x11, UInt8.ofNat l, UInt8.ofNat lcn, 0, 0, 0, 0, 0] := by
    simp only [List.mem_cons, Prod.mk.injEq, List.not_mem_nil, or_false] at h
    rcases h with ⟨rfl, rfl, rfl, rfl⟩ | ⟨rfl, rfl, rfl, rfl⟩ | ⟨rfl, rfl, rfl, rfl⟩ | ⟨rfl, rfl, rfl, rfl⟩ <;>
      decide
  rw [hb]
  have hl : 0 < l ∧ l < 11 ∧ 0 < lcn ∧ lcn < 14 ∧ lcn + l ≤ 14 := by
    simp only [List.mem_cons, Prod.mk.injEq, List.not_mem_nil, or_false] at h
    omega
  refine oneRun_stored exBaseNtfs.clusterSize exBaseImage l lcn [0, 0, 0, 0] (by decide) (by omega)
    (by omega) (by omega) (by omega) ?_ (by rw [exBaseLen]; decide)
  rw [exBaseLen]
  have : (lcn + l) * 64 ≤ 14 * 64 := Nat.mul_le_mul_right 64 hl.2.2.2.2
  exact this

set_option maxRecDepth 20000 in
theorem exBaseMft : MftStored exBaseNtfs exBaseImage (exBaseFile 0) [⟨10, some 1⟩] [] 56 72 64 :=
  { mftPos := ⟨64, rfl, by decide, by decide⟩
    sizePos := by decide
    chain := .nil 56
    attr := ⟨by decide, by decide, by decide, by decide⟩
    first := by simp
    ty := by decide
    nonRes := by decide
    header := by decide
    runsAt := by decide
    runsIn := by decide
    runs := exBaseRuns 0 56 10 1 (by simp) }

set_option maxRecDepth 20000 in
theorem exBaseList : ListStored exBaseNtfs exBaseImage (exBaseFile 1) 56 72
    [exBaseEntry 0 1 2, exBaseEntry 1 2 0] := by
  refine .nonResident 64 52 [⟨1, some 11⟩] (by decide) (by decide) (by decide) (by decide) (by decide)
    (exBaseRuns 1 56 1 11 (by simp)) (by decide) (by decide) ?_
  have h2 := ListEncodes.cons (exBaseEntry 1 2 0) [] [] []
    ⟨by decide, by decide, by decide, by decide, by decide, by decide⟩ (by decide) .nil
  have h1 := ListEncodes.cons (exBaseEntry 0 1 2) [] _ _
    ⟨by decide, by decide, by decide, by decide, by decide, by decide⟩ (by decide) h2
  have hb : (exBaseEntry 0 1 2).encode [] ++ ((exBaseEntry 1 2 0).encode [] ++ []) =
      (content exBaseNtfs.clusterSize exBaseImage [⟨1, some 11⟩]).take 52 := by decide
  rw [hb] at h1
  exact h1

set_option maxRecDepth 20000 in
theorem exBaseLoads : Loads exBaseNtfs exBaseImage [⟨10, some 1⟩] (exBaseEntry 1 2 0) (exBaseFile 2) 56 ∧
    Loads exBaseNtfs exBaseImage [⟨10, some 1⟩] (exBaseEntry 0 1 2) (exBaseFile 1) 128 := by
  refine ⟨⟨by decide, ⟨464, by decide, by decide, by decide⟩, ⟨[], 72, .nil 56,
      ⟨by decide, by decide, by decide, by decide⟩, by simp⟩, by decide, by decide⟩,
    ⟨by decide, ⟨264, by decide, by decide, by decide⟩, ⟨[56], 72, ?_,
      ⟨by decide, by decide, by decide, by decide⟩, ?_⟩, by decide, by decide⟩⟩
  · exact .cons (len := 72) ⟨by decide, by decide, by decide, by decide⟩ (.nil 128)
  · intro q hq
    simp only [List.mem_cons, List.not_mem_nil, or_false] at hq
    subst hq
    exact ⟨by decide, .inl (by decide)⟩

set_option maxRecDepth 20000 in
theorem exBaseGroups : Groups (exBaseFile 1).number (KindOf exBaseNtfs exBaseImage [⟨10, some 1⟩])
    [exBaseEntry 0 1 2, exBaseEntry 1 2 0] [(exBaseEntry 1 2 0, [])] :=
  .own _ _ _ (by decide) (.split (exBaseEntry 1 2 0) [] [] [] (by decide)
    ⟨_, _, exBaseLoads.1, by decide⟩ (by simp) (by simp) .nil)

set_option maxRecDepth 20000 in
/-- C51 fails: the $DATA value of record 1 has 128 bytes, one cluster described in record 1 itself and
one in record 2, as the attribute list says. The flattened iteration shows the two attributes as two
items, and the value of the one in record 1 (which says that it has 128 bytes) ends after 64 bytes. -/
theorem C51_negation :
    ∃ (ntfs : Ntfs) (img : Bytes) (mftEs : List Extent) (f g : NFile) (e0 e1 : LEntry),
      (∃ mft pre moff mlen mstart, MftStored ntfs img mft mftEs pre moff mlen mstart) ∧
      ListStored ntfs img f 56 72 [e0, e1] ∧ e0.ty = 0x80 ∧ e0.record = f.number ∧
      Loads ntfs img mftEs e0 f 128 ∧ e0.vcn = 0 ∧
      StoredAs ntfs.clusterSize img ((f.recordData.drop (128 + 64)).take (72 - 64)) [⟨1, some 12⟩] ∧
      Loads ntfs img mftEs e1 g 56 ∧ e1.ty = 0x80 ∧ e1.vcn = 1 ∧
      StoredAs ntfs.clusterSize img ((g.recordData.drop (56 + 64)).take (72 - 64)) [⟨1, some 13⟩] ∧
      ∀ (d : Dev), d.NoFail → d.img = img → ∀ k, ∃ it i1 i2 a v, f.attributes = .ok it ∧
        Attrs.calls (2 + k) (it, d) = .ok (some i1) :: .ok (some i2) :: List.replicate k (.ok none) ∧
        i2.valueFile = none ∧ i2.offset = 128 ∧ i2.toAttribute = .ok a ∧
        a.value d = (.ok (.simple (.nonRes v)), d) ∧ v.len = 128 ∧
        (v.run d [.read (List.replicate 64 0), .read (List.replicate 64 0)]).1 =
          [⟨.ok 64, List.replicate 64 0xAA⟩, ⟨.ok 0, List.replicate 64 0⟩] := by
  refine ⟨exBaseNtfs, exBaseImage, [⟨10, some 1⟩], exBaseFile 1, exBaseFile 2, exBaseEntry 0 1 2,
    exBaseEntry 1 2 0, ⟨_, _, _, _, _, exBaseMft⟩, exBaseList, rfl, by decide, exBaseLoads.2, rfl,
    exBaseRuns 1 128 1 12 (by simp), exBaseLoads.1, rfl, rfl, exBaseRuns 2 56 1 13 (by simp), ?_⟩
  intro d hd hi k
  have hA : AttrAt (exBaseFile 1).recordData 56 72 := ⟨by decide, by decide, by decide, by decide⟩
  have hB : AttrAt (exBaseFile 1).recordData 128 72 := ⟨by decide, by decide, by decide, by decide⟩
  obtain ⟨it, rs, q1, q2, q3⟩ := C23_with_list exBaseMft (exBaseFile 1) rfl (by decide) [] [128] 56 72 200
    (.cons hA (.cons hB (.nil 200)))
    (by
      intro o ho
      simp only [List.nil_append, List.mem_cons, List.not_mem_nil, or_false] at ho
      subst ho
      decide) hA _ exBaseList
    (by
      intro e he
      simp only [List.mem_cons, List.not_mem_nil, or_false] at he
      rcases he with rfl | rfl <;> exact ⟨.data, rfl⟩)
    _ exBaseGroups (.ok none) (.inl ⟨fun h => absurd h (by decide), rfl⟩) d hd hi k
  cases q2 with
  | cons hs ht =>
    cases ht with
    | nil =>
      rcases hs with ⟨i, file, rfl, p2, p3, p4, _⟩ | ⟨x, rfl, p2⟩
      · obtain ⟨a, v, h1, h2, h3, h4⟩ := C51_own_runs_only_partial exBaseNtfs exBaseImage (exBaseFile 1) rfl
          128 72 64 128 [⟨1, some 12⟩] _ rfl hB (by decide) (by decide) (by decide) (by decide)
          (exBaseRuns 1 128 1 12 (by simp)) (by decide) d hd hi
          [.read (List.replicate 64 0), .read (List.replicate 64 0)] (by
            intro op ho
            simp only [List.mem_cons, List.not_mem_nil, or_false, or_self] at ho
            subst ho
            decide)
        refine ⟨it, i, _, a, v, q1, ?_, rfl, rfl, h1, h2, h3, ?_⟩
        · have e : 2 + k = 1 + (1 + k) := by omega
          rw [e]
          simpa using q3
        · rw [h4]
          decide
      · exact absurd p2 exBaseLoads.1.not_fails

end NT
