import Verif.Props.C59_EndToEnd

/-! A complete volume that meets the hypotheses of C59, and the witness for C57. -/

namespace NT

open Spec

/-- A record with the last two bytes of its sector restored. -/
def exFixed (b : Bytes) : Bytes := b.take 510 ++ [0, 0]

def exVol (t : Option (List Nat)) : Ntfs := { exDiskNtfs with upcaseTable := t }

def exMftEs : List Extent := [⟨1, some 1⟩, ⟨4, none⟩, ⟨1, some 2⟩, ⟨4, none⟩, ⟨3, some 3⟩]

/-- The record `b` at `pos` with the number `number`. -/
def exRec (b : Bytes) (pos number : Nat) (t : Option (List Nat)) : View :=
  ⟨exVol t, exDisk, exMftEs, ⟨exVol t, ⟨exFixed b, some pos⟩, number⟩⟩

theorem flatMap_leBytes_length (l : List Nat) : (l.flatMap (leBytes 2)).length = 2 * l.length := by
  induction l with
  | nil => rfl
  | cons x l ih =>
    rw [List.flatMap_cons, List.length_append, ih, List.length_cons]
    have : (leBytes 2 x).length = 2 := rfl
    omega

theorem exTable_length : exTable.length = 65536 := by
  unfold exTable
  rw [List.length_map, List.length_range]

theorem exDiskTable_length : exDiskTable.length = 131072 := by
  unfold exDiskTable
  rw [flatMap_leBytes_length, exTable_length]

set_option maxRecDepth 20000 in
theorem exDiskHead_length : exDiskHead.length = 4096 := by decide +kernel

theorem exDisk_length : exDisk.length = 135168 := by
  unfold exDisk
  rw [List.length_append, exDiskHead_length, exDiskTable_length]

theorem exTable_units : Units exTable := by
  intro x hx
  unfold exTable at hx
  obtain ⟨k, hk, rfl⟩ := List.mem_map.1 hx
  have := List.mem_range.1 hk
  show _ < 65536
  split <;> omega

theorem tableOf_exDiskTable : tableOf exDiskTable = exTable := by
  rw [← u16s_tableOf _ exDiskTable_length]
  unfold exDiskTable
  exact u16s_flatMap _ exTable_units

/-- A part of the first clusters. -/
theorem exDisk_part (a n : Nat) (h : a + n ≤ 4096) : (exDisk.drop a).take n = (exDiskHead.drop a).take n := by
  have hl := exDiskHead_length
  unfold exDisk
  rw [List.drop_append_of_le_length (by omega), List.take_append_of_le_length (by rw [List.length_drop]; omega)]

theorem exDisk_field (a n : Nat) (h : a + n ≤ 4096) : field exDisk a n = field exDiskHead a n := by
  unfold field
  rw [exDisk_part a n h]

theorem exRec_of {b : Bytes} {pos number : Nat} (t : Option (List Nat)) (h1 : number < 65536)
    (h2 : addressOf 512 exMftEs (number * 512) = some pos) (h3 : pos + 512 ≤ 4096)
    (h4 : (exDiskHead.drop pos).take 512 = b)
    (h5 : NFile.ofBytes exDiskNtfs b pos number = .ok ⟨exDiskNtfs, ⟨exFixed b, some pos⟩, number⟩) :
    RecordOf (exRec b pos number t) number := by
  refine ⟨?_, pos, h2, ?_, ?_⟩
  · show number * 512 < U64
    have : U64 = 18446744073709551616 := rfl
    omega
  · show pos + 512 ≤ exDisk.length
    rw [exDisk_length]
    omega
  · show NFile.ofBytes (exVol t) ((exDisk.drop pos).take 512) pos number = _
    rw [exDisk_part _ _ h3, h4]
    exact NFile.ofBytes_ntfs _ (exVol t) _ _ _ _ h5

set_option maxRecDepth 20000 in
theorem exRec_records (t : Option (List Nat)) :
    RecordOf (exRec exDiskRec5 1024 5 t) 5 ∧ RecordOf (exRec exDiskRec10 1536 10 t) 10 ∧
    RecordOf (exRec exDiskRec11 2048 11 t) 11 ∧ RecordOf (exRec exDiskRec12 2560 12 t) 12 :=
  ⟨exRec_of t (by decide) (by decide +kernel) (by decide) (by decide +kernel) (by decide +kernel),
   exRec_of t (by decide) (by decide +kernel) (by decide) (by decide +kernel) (by decide +kernel),
   exRec_of t (by decide) (by decide +kernel) (by decide) (by decide +kernel) (by decide +kernel),
   exRec_of t (by decide) (by decide +kernel) (by decide) (by decide +kernel) (by decide +kernel)⟩

def exMft (t : Option (List Nat)) : NFile := ⟨exVol t, ⟨exFixed exDiskRec0, some 512⟩, 0⟩

set_option maxRecDepth 20000 in
theorem exMft_stored (t : Option (List Nat)) :
    MftStored (exVol t) exDisk (exMft t) exMftEs [] 56 80 64 :=
  { mftPos := ⟨512, rfl, by rw [exDisk_length]; exact (by decide : 512 + 512 ≤ 135168), by
      show NFile.ofBytes (exVol t) ((exDisk.drop 512).take 512) 512 0 = _
      rw [exDisk_part _ _ (by decide)]
      exact NFile.ofBytes_ntfs exDiskNtfs (exVol t) _ _ _ ⟨exDiskNtfs, ⟨exFixed exDiskRec0, some 512⟩, 0⟩
        (by decide +kernel)⟩
    sizePos := (by decide : 0 < 512)
    chain := .nil 56
    attr := by
      show AttrAt (exFixed exDiskRec0) 56 80
      exact ⟨by decide +kernel, by decide +kernel, by decide +kernel, by decide +kernel⟩
    first := by simp
    ty := by show field (exFixed exDiskRec0) _ _ = _; decide +kernel
    nonRes := by show field (exFixed exDiskRec0) _ _ ≠ _; decide +kernel
    header := by decide
    runsAt := by show field (exFixed exDiskRec0) _ _ = _; decide +kernel
    runsIn := by decide
    runs := {
      clusterPos := (by decide : 0 < 512)
      enc := by
        have hb : List.take (80 - 64) (List.drop (56 + 64) (exMft t).recordData) =
            [0x11, 1, 1, 0x01, 4, 0x11, 1, 1, 0x01, 4, 0x11, 3, 1, 0, 0, 0] := by
          show List.take (80 - 64) (List.drop (56 + 64) (exFixed exDiskRec0)) = _
          decide +kernel
        rw [hb]
        refine .run 0 1 1 ⟨1, some 1⟩ _ [0x01, 4, 0x11, 1, 1, 0x01, 4, 0x11, 3, 1, 0, 0, 0] ?_
          (.run 1 1 0 ⟨4, none⟩ _ [0x11, 1, 1, 0x01, 4, 0x11, 3, 1, 0, 0, 0] ?_
          (.run 1 1 1 ⟨1, some 2⟩ _ [0x01, 4, 0x11, 3, 1, 0, 0, 0] ?_
          (.run 2 1 0 ⟨4, none⟩ _ [0x11, 3, 1, 0, 0, 0] ?_
          (.run 2 1 1 ⟨3, some 3⟩ _ [0, 0, 0] ?_ (.terminated _ _)))))
        · simp [WidthsOk, FitsSigned]
        · simp [WidthsOk]
        · simp [WidthsOk, FitsSigned]
        · simp [WidthsOk]
        · simp [WidthsOk, FitsSigned]
      rep := by simp [Representable, exMftEs, exVol, exDiskNtfs]
      nonZero := by simp [NonZero, Extent.lcnAfter, exMftEs]
      inImage := by
        intro e he l hl
        rw [exDisk_length]
        simp only [exMftEs, List.mem_cons, List.not_mem_nil, or_false] at he
        rcases he with rfl | rfl | rfl | rfl | rfl
        · injection hl with hl; subst hl; show 1 * 512 + 1 * 512 ≤ _; decide
        · cases hl
        · injection hl with hl; subst hl; show 2 * 512 + 1 * 512 ≤ _; decide
        · cases hl
        · injection hl with hl; subst hl; show 3 * 512 + 3 * 512 ≤ _; decide
      imgLt := by rw [exDisk_length]; decide } }

theorem exRec_hasMft (b : Bytes) (pos number : Nat) (t : Option (List Nat)) : HasMft (exRec b pos number t) :=
  ⟨_, _, _, _, _, exMft_stored t⟩

def exGeometry : Geometry := ⟨512, 1, 512, 264, 1, 0x1122334455667788⟩

set_option maxRecDepth 20000 in
theorem exDisk_boot : BootSector exDisk exGeometry where
  length := by rw [exDisk_length]; decide
  signature := by
    have : ∀ i, i < 4096 → exDisk[i]? = exDiskHead[i]? := by
      intro i hi
      unfold exDisk
      exact List.getElem?_append_left (by rw [exDiskHead_length]; exact hi)
    rw [this 510 (by decide), this 511 (by decide)]
    decide +kernel
  sectorSize := ⟨by rw [exDisk_field _ _ (by decide)]; decide +kernel, 9, by decide, by decide, by decide⟩
  cluster := .inl ⟨0, by decide, by rw [exDisk_field _ _ (by decide)]; decide +kernel, by decide⟩
  clusterSize := by decide
  record := by
    have : field exDisk 64 1 = 1 := by rw [exDisk_field _ _ (by decide)]; decide +kernel
    rw [this]
    exact .inl ⟨by decide, by decide, by decide⟩
  totalSectors := ⟨by rw [exDisk_field _ _ (by decide)]; decide +kernel, by decide⟩
  mft := ⟨by rw [exDisk_field _ _ (by decide)]; decide +kernel, by decide, by decide⟩
  serial := by rw [exDisk_field _ _ (by decide)]; decide +kernel

abbrev exUpcase : View := exRec exDiskRec10 1536 10 none
abbrev exRoot : View := exRec exDiskRec5 1024 5 (some exTable)
abbrev exSub : View := exRec exDiskRec11 2048 11 (some exTable)
abbrev exFile : View := exRec exDiskRec12 2560 12 (some exTable)

theorem exUpcase_attr : AttrAt (exFixed exDiskRec10) 56 72 :=
  ⟨by decide +kernel, by decide +kernel, by decide +kernel, by decide +kernel⟩

theorem exUpcase_flattened : Flattened exUpcase [.own 56] (.ok none) :=
  .plain (V := exUpcase) [56] 128 (.ok none)
    (by show 32 ≤ (exFixed exDiskRec10).length; decide +kernel)
    (.cons exUpcase_attr (.nil 128))
    (by show ∀ o ∈ [56], field (exFixed exDiskRec10) o 4 ≠ 0x20; decide +kernel)
    (.inl ⟨fun _ => by show field (exFixed exDiskRec10) 128 4 = _; decide +kernel, rfl⟩)

theorem exUpcase_content : (content 512 exDisk [⟨256, some 8⟩]).take 131072 = exDiskTable := by
  show (((exDisk.drop (8 * 512)).take (256 * 512)) ++ []).take 131072 = _
  have : exDisk.drop (8 * 512) = exDiskTable := by
    unfold exDisk
    exact List.drop_left' exDiskHead_length
  rw [this, List.append_nil, List.take_of_length_le (l := exDiskTable) (by rw [exDiskTable_length]; decide),
    List.take_of_length_le (by rw [exDiskTable_length]; decide)]

theorem exUpcase_stored : TableStored exUpcase [.own 56] [] [] (.own 56) exDiskTable 131072 := by
  rw [← exUpcase_content]
  refine TableStored.own (V := exUpcase) (off := 56) (len := 72) (start := 64) (size := 131072)
    (es := [⟨256, some 8⟩]) rfl (by simp) exUpcase_attr ?_ ?_ ?_ ?_ ?_ (by decide) ?_ ?_
  · show field (exFixed exDiskRec10) _ _ = _; decide +kernel
  · show NameIs (exFixed exDiskRec10) 56 []
    exact ⟨by decide +kernel, by decide +kernel⟩
  · show field (exFixed exDiskRec10) _ _ ≠ _; decide +kernel
  · show _ ≤ (exFixed exDiskRec10).length; decide +kernel
  · show field (exFixed exDiskRec10) _ _ = _; decide +kernel
  · show field (exFixed exDiskRec10) _ _ = _; decide +kernel
  · exact
    { clusterPos := (by decide : 0 < 512)
      enc := by
        have hb : List.take (72 - 64) (List.drop (56 + 64) exUpcase.base.recordData) =
            [0x12, 0, 1, 8, 0, 0, 0, 0] := by
          show List.take (72 - 64) (List.drop (56 + 64) (exFixed exDiskRec10)) = _
          decide +kernel
        rw [hb]
        refine .run 0 2 1 ⟨256, some 8⟩ _ [0, 0, 0, 0] ?_ (.terminated _ _)
        simp [WidthsOk, FitsSigned]
      rep := by simp [Representable, exRec, exVol, exDiskNtfs]
      nonZero := by simp [NonZero]
      inImage := by
        intro e he l hl
        show _ ≤ exDisk.length
        rw [exDisk_length]
        simp only [List.mem_cons, List.not_mem_nil, or_false] at he
        subst he
        injection hl with hl
        subst hl
        show 8 * 512 + 256 * 512 ≤ _
        decide
      imgLt := by show exDisk.length < _; rw [exDisk_length]; decide }

/-- The shell starts on the example volume. -/
theorem exDisk_start (d : Dev) (hd : d.Ok exDisk) :
    ∃ d', Shell.start 20 d = (.ok ⟨[exRoot.base], [], exVol (some exTable)⟩, d') ∧ d'.Ok exDisk :=
  C59_start_partial (U := exUpcase) (R := exRoot) exDisk_boot rfl rfl (exRec_hasMft _ _ _ _)
    (exRec_records none).2.1 exUpcase_flattened exDiskTable_length exUpcase_stored rfl
    (by rw [tableOf_exDiskTable]; rfl) rfl (exRec_records _).1 20 (by decide) d hd

def exEntSub : Ent := ⟨((exFixed exDiskRec5).drop 120).take 8, ((exFixed exDiskRec5).drop 136).take 72⟩
def exEntFile : Ent := ⟨((exFixed exDiskRec5).drop 208).take 8, ((exFixed exDiskRec5).drop 224).take 68⟩

theorem exRoot_attr : AttrAt (exFixed exDiskRec5) 56 256 :=
  ⟨by decide +kernel, by decide +kernel, by decide +kernel, by decide +kernel⟩

theorem exRoot_flattened : Flattened exRoot [.own 56] (.ok none) :=
  .plain (V := exRoot) [56] 312 (.ok none)
    (by show 32 ≤ (exFixed exDiskRec5).length; decide +kernel)
    (.cons exRoot_attr (.nil 312))
    (by show ∀ o ∈ [56], field (exFixed exDiskRec5) o 4 ≠ 0x20; decide +kernel)
    (.inl ⟨fun _ => by show field (exFixed exDiskRec5) 312 4 = _; decide +kernel, rfl⟩)

def exRootTree : Node := .leaf exEntSub (.leaf exEntFile .last)

theorem exRoot_tree : NodeAt (fun _ _ _ _ => False) (part (exFixed exDiskRec5) 120 192) 0 192 exRootTree := by
  refine .leaf (len := 88) (by decide) (by decide +kernel) ?_ (.leaf (len := 88) (by decide) (by decide +kernel)
    ?_ (.last (len := 16) (by decide) (by decide +kernel) ?_))
  · exact
      { room := by decide +kernel, length := by decide +kernel, flags := by decide +kernel
        vcn := by intro v hv; cases hv
        head := by decide +kernel, keyLength := by decide +kernel, fits := by decide +kernel
        key := by decide +kernel }
  · exact
      { room := by decide +kernel, length := by decide +kernel, flags := by decide +kernel
        vcn := by intro v hv; cases hv
        head := by decide +kernel, keyLength := by decide +kernel, fits := by decide +kernel
        key := by decide +kernel }
  · exact
      { room := by decide +kernel, length := by decide +kernel, flags := by decide +kernel
        vcn := by intro v hv; cases hv }

theorem exUpper (c : Nat) (h : c < 65536) {s u : List Nat} (hs : Upper exTable s u) :
    Upper exTable (c :: s) ((if 97 ≤ c ∧ c ≤ 122 then c - 32 else c) :: u) := .cons (exTable_get c h) hs

theorem exRoot_upper : UpperName exTable exEntSub [65, 92, 66] ∧ UpperName exTable exEntFile [70] := by
  refine ⟨⟨[97, 92, 98], ⟨?_, by decide +kernel, by decide +kernel, by decide +kernel, by decide +kernel,
    by decide +kernel⟩, ?_⟩, ⟨[102], ⟨?_, by decide +kernel, by decide +kernel, by decide +kernel,
    by decide +kernel, by decide +kernel⟩, ?_⟩⟩
  · unfold Units; decide
  · exact exUpper 97 (by decide) (exUpper 92 (by decide) (exUpper 98 (by decide) .nil))
  · unfold Units; decide
  · exact exUpper 102 (by decide) .nil

theorem exRoot_dir : DirOf exRoot [.own 56] exRootTree exTable where
  flat := ⟨_, exRoot_flattened⟩
  room := by show 24 ≤ (exFixed exDiskRec5).length; decide +kernel
  flag := by show field (exFixed exDiskRec5) 22 2 / 2 % 2 = 1; decide +kernel
  stored := by
    have n1 : NameIs (exFixed exDiskRec5) 56 [0x24, 0x49, 0x33, 0x30] := ⟨by decide +kernel, by decide +kernel⟩
    have hval : valueAt exRoot.base 56 = part (exFixed exDiskRec5) 88 224 := by
      show ((exFixed exDiskRec5).drop (56 + field (exFixed exDiskRec5) (56 + 20) 2)).take
        (field (exFixed exDiskRec5) (56 + 16) 4) = _
      decide +kernel
    have ht := exRoot_tree
    have e : (part (exFixed exDiskRec5) 120 192).length = 192 := by decide +kernel
    have e' : ∀ d : Bytes, d.length = 192 → NodeAt (fun _ _ _ _ => False) d 0 192 exRootTree →
        NodeAt (fun _ _ _ _ => False) d 0 d.length exRootTree := by
      intro d h1 h2
      rw [h1]
      exact h2
    refine .small (s := .own 56) (file := exRoot.base) (off := 56) (d := part (exFixed exDiskRec5) 120 192)
      (size := 512)
      ⟨⟨[], [], rfl, by simp⟩, ⟨rfl, rfl, _, exRoot_attr⟩, ⟨_, ⟨rfl, _, exRoot_attr⟩, rfl⟩, ?_⟩ ?_ ?_
      (e' _ e ht)
    · exact ⟨by show field (exFixed exDiskRec5) 56 4 = _; decide +kernel, by simp, by rintro s ⟨⟩; exact n1⟩
    · show field (exFixed exDiskRec5) 64 1 = 0 ∧ 78 ≤ (exFixed exDiskRec5).length ∧
        field (exFixed exDiskRec5) 76 2 + field (exFixed exDiskRec5) 72 4 ≤ field (exFixed exDiskRec5) 60 4
      decide +kernel
    · rw [hval]
      exact ⟨by decide +kernel, by decide +kernel, by decide +kernel, by decide +kernel, by decide +kernel,
        by decide +kernel, by decide +kernel⟩
  sorted := by
    have hin : exRootTree.inorder = [exEntSub, exEntFile] := rfl
    rw [hin]
    obtain ⟨h1, h2⟩ := exRoot_upper
    constructor
    · intro e he
      simp only [List.mem_cons, List.not_mem_nil, or_false] at he
      rcases he with rfl | rfl
      · exact ⟨_, h1⟩
      · exact ⟨_, h2⟩
    · simp only [List.pairwise_cons, List.mem_cons, List.not_mem_nil, or_false, forall_eq,
        List.Pairwise.nil, and_true, false_imp_iff, implies_true]
      intro u v hu hv
      rw [hu.unique h1, hv.unique h2]
      decide

theorem exNames_sub : Names exTable exRootTree [97, 92, 98] exEntSub where
  mem := by show exEntSub ∈ [exEntSub, exEntFile]; simp
  upper := ⟨_, exUpper 97 (by decide) (exUpper 92 (by decide) (exUpper 98 (by decide) .nil)), exRoot_upper.1⟩
  only := by
    show ∀ e' ∈ [exEntSub, exEntFile], _
    intro e' he ⟨u, hu, hu'⟩
    simp only [List.mem_cons, List.not_mem_nil, or_false] at he
    rcases he with rfl | rfl
    · rfl
    · have h1 := upper_unique hu (exUpper 97 (by decide) (exUpper 92 (by decide) (exUpper 98 (by decide) .nil)))
      rw [h1] at hu'
      have := hu'.unique exRoot_upper.2
      simp at this

/-- The name is found whatever its case. -/
theorem exNames_file : Names exTable exRootTree [70] exEntFile where
  mem := by show exEntFile ∈ [exEntSub, exEntFile]; simp
  upper := ⟨_, exUpper 70 (by decide) .nil, exRoot_upper.2⟩
  only := by
    show ∀ e' ∈ [exEntSub, exEntFile], _
    intro e' he ⟨u, hu, hu'⟩
    simp only [List.mem_cons, List.not_mem_nil, or_false] at he
    rcases he with rfl | rfl
    · have h1 := upper_unique hu (exUpper 70 (by decide) .nil)
      rw [h1] at hu'
      have := hu'.unique exRoot_upper.1
      simp at this
    · rfl

theorem exFile_attrs : AttrAt (exFixed exDiskRec12) 56 96 ∧ AttrAt (exFixed exDiskRec12) 152 80 ∧
    AttrAt (exFixed exDiskRec12) 232 40 :=
  ⟨⟨by decide +kernel, by decide +kernel, by decide +kernel, by decide +kernel⟩,
   ⟨by decide +kernel, by decide +kernel, by decide +kernel, by decide +kernel⟩,
   ⟨by decide +kernel, by decide +kernel, by decide +kernel, by decide +kernel⟩⟩

theorem exFile_flattened : Flattened exFile [.own 56, .own 152, .own 232] (.ok none) :=
  .plain (V := exFile) [56, 152, 232] 272 (.ok none)
    (by show 32 ≤ (exFixed exDiskRec12).length; decide +kernel)
    (.cons exFile_attrs.1 (.cons exFile_attrs.2.1 (.cons exFile_attrs.2.2 (.nil 272))))
    (by show ∀ o ∈ [56, 152, 232], field (exFixed exDiskRec12) o 4 ≠ 0x20; decide +kernel)
    (.inl ⟨fun _ => by show field (exFixed exDiskRec12) 272 4 = _; decide +kernel, rfl⟩)

/-- The bytes of the file: a cluster, a hole, and the beginning of a cluster before the first one. -/
def exFileBytes : Bytes := exDiskData7 ++ List.replicate 512 0 ++ exDiskData6.take 76

set_option maxRecDepth 20000 in
theorem exFile_content : (content 512 exDisk [⟨1, some 7⟩, ⟨1, none⟩, ⟨1, some 6⟩]).take 1100 = exFileBytes := by
  show (((exDisk.drop (7 * 512)).take (1 * 512)) ++ (List.replicate (1 * 512) 0 ++
    (((exDisk.drop (6 * 512)).take (1 * 512)) ++ []))).take 1100 = _
  rw [exDisk_part _ _ (by decide), exDisk_part _ _ (by decide)]
  decide +kernel

theorem exFile_miss (asked : List Nat) : DataMiss exFile asked exFile.base 56 := by
  refine ⟨?_, fun h => absurd h ?_⟩
  · show field (exFixed exDiskRec12) 56 4 ∈ _; decide +kernel
  · show ¬ field (exFixed exDiskRec12) 56 4 = _; decide +kernel

theorem exFile_names : NameIs (exFixed exDiskRec12) 152 [] ∧ NameIs (exFixed exDiskRec12) 232 [115] :=
  ⟨⟨by decide +kernel, by decide +kernel⟩, ⟨by decide +kernel, by decide +kernel⟩⟩

theorem exFile_unnamed : StreamOf exFile [.own 56, .own 152, .own 232] [] exFileBytes 1100 := by
  refine ⟨[.own 56], .own 152, [.own 232], exFile.base, 152, rfl, ?_, ⟨rfl, rfl, _, exFile_attrs.2.1⟩, ?_,
    ⟨[], exFile_names.1, ?_⟩, ⟨_, rfl, _, exFile_attrs.2.1⟩, ?_⟩
  · intro p hp
    simp only [List.mem_cons, List.not_mem_nil, or_false] at hp
    subst hp
    exact ⟨_, _, ⟨rfl, rfl, _, exFile_attrs.1⟩, exFile_miss _⟩
  · show field (exFixed exDiskRec12) _ _ = _; decide +kernel
  · unfold StreamMatch; simp
  · intro i hi
    have hi' := hi
    obtain ⟨hi, _⟩ := hi
    injection hi with hi
    injection hi with hi
    subst hi
    obtain ⟨f, g1, g2, g3, _⟩ := Step.item hi'
    obtain ⟨rfl, _, _⟩ := g1
    refine ⟨_, g2, ?_⟩
    rw [← exFile_content]
    refine Attr.opens_nonResident exDisk _ g3.header rfl ?_ ?_ 64 80 1100 ?_ exFile_attrs.2.1.length
      exFile_attrs.2.1.inside (by decide) ?_ [⟨1, some 7⟩, ⟨1, none⟩, ⟨1, some 6⟩] ?_
    · show _ ≤ (exFixed exDiskRec12).length; decide +kernel
    · show field (exFixed exDiskRec12) _ _ ≠ _; decide +kernel
    · show field (exFixed exDiskRec12) _ _ = _; decide +kernel
    · show field (exFixed exDiskRec12) _ _ = _; decide +kernel
    · exact
      { clusterPos := (by decide : 0 < 512)
        enc := by
          have hb : List.take (80 - 64) (List.drop (152 + 64) exFile.base.recordData) =
              [0x11, 1, 7, 0x01, 1, 0x11, 1, 0xFF, 0, 0, 0, 0, 0, 0, 0, 0] := by
            show List.take (80 - 64) (List.drop (152 + 64) (exFixed exDiskRec12)) = _
            decide +kernel
          rw [show (Attr.mk exFile.base 152 none).recordData = exFile.base.recordData from rfl, hb]
          refine .run 0 1 1 ⟨1, some 7⟩ _ [0x01, 1, 0x11, 1, 0xFF, 0, 0, 0, 0, 0, 0, 0, 0] ?_
            (.run 7 1 0 ⟨1, none⟩ _ [0x11, 1, 0xFF, 0, 0, 0, 0, 0, 0, 0, 0] ?_
            (.run 7 1 1 ⟨1, some 6⟩ _ [0, 0, 0, 0, 0, 0, 0, 0] ?_ (.terminated _ _)))
          · simp [WidthsOk, FitsSigned]
          · simp [WidthsOk]
          · simp [WidthsOk, FitsSigned]
        rep := by simp [Representable, exRec, exVol, exDiskNtfs]
        nonZero := by simp [NonZero, Extent.lcnAfter]
        inImage := by
          intro e he l hl
          rw [exDisk_length]
          simp only [List.mem_cons, List.not_mem_nil, or_false] at he
          rcases he with rfl | rfl | rfl
          · injection hl with hl; subst hl; show 7 * 512 + 1 * 512 ≤ _; decide
          · cases hl
          · injection hl with hl; subst hl; show 6 * 512 + 1 * 512 ≤ _; decide
        imgLt := by rw [exDisk_length]; decide }

/-- The stream "s", asked for as "S". -/
theorem exFile_named : StreamOf exFile [.own 56, .own 152, .own 232] [83] [104, 105] 2 := by
  have hu : Upper exTable [83] [83] := exUpper 83 (by decide) .nil
  refine ⟨[.own 56, .own 152], .own 232, [], exFile.base, 232, rfl, ?_, ⟨rfl, rfl, _, exFile_attrs.2.2⟩, ?_,
    ⟨[115], exFile_names.2, ?_⟩, ⟨_, rfl, _, exFile_attrs.2.2⟩, ?_⟩
  · intro p hp
    simp only [List.mem_cons, List.not_mem_nil, or_false] at hp
    rcases hp with rfl | rfl
    · exact ⟨_, _, ⟨rfl, rfl, _, exFile_attrs.1⟩, exFile_miss _⟩
    · refine ⟨_, _, ⟨rfl, rfl, _, exFile_attrs.2.1⟩, ?_, fun _ => ⟨[], exFile_names.1, ?_⟩⟩
      · show field (exFixed exDiskRec12) 152 4 ∈ _; decide +kernel
      · unfold StreamMatch
        rw [if_neg (by simp)]
        rintro ⟨t, u, h1, h2, h3⟩
        cases h2
        cases h3
  · show field (exFixed exDiskRec12) _ _ = _; decide +kernel
  · unfold StreamMatch
    rw [if_neg (by simp)]
    exact ⟨exTable, [83], rfl, exUpper 115 (by decide) .nil, hu⟩
  · intro i hi
    have hi' := hi
    obtain ⟨hi, _⟩ := hi
    injection hi with hi
    injection hi with hi
    subst hi
    obtain ⟨f, g1, g2, g3, _⟩ := Step.item hi'
    obtain ⟨rfl, _, _⟩ := g1
    refine ⟨_, g2, ?_⟩
    have h := Attr.opens_resident exDisk exFile.base 232 _ g2 ?_ ?_ 32 2 40 ?_ ?_ ?_ (by decide)
    · have hb : List.take 2 (List.drop (232 + 32) exFile.base.recordData) = [104, 105] := by
        show List.take 2 (List.drop (232 + 32) (exFixed exDiskRec12)) = _
        decide +kernel
      rw [hb] at h
      exact h
    · show field (exFixed exDiskRec12) _ _ = _; decide +kernel
    · show _ ≤ (exFixed exDiskRec12).length; decide +kernel
    · show field (exFixed exDiskRec12) _ _ = _; decide +kernel
    · show field (exFixed exDiskRec12) _ _ = _; decide +kernel
    · show field (exFixed exDiskRec12) _ _ = _; decide +kernel

set_option maxRecDepth 20000 in
/-- From the bytes of the example volume to the bytes of the file "f", asked for as "F", and of its
stream "s", asked for as "S". -/
example (d : Dev) (hd : d.Ok exDisk) : ∃ s d1 d2, Shell.start 2000 d = (.ok s, d1) ∧
    s.get ['F'] (fun _ => false) 2000 d1 = (.ok (.ok 1100), some (['F'], exFileBytes), d2) := by
  have h := C59_end_to_end_partial (U := exUpcase) (R := exRoot) (F := exFile) exDisk_boot rfl rfl
    (exRec_hasMft _ _ _ _) (exRec_records none).2.1 exUpcase_flattened exDiskTable_length exUpcase_stored rfl
    (by rw [tableOf_exDiskTable]; rfl) rfl (exRec_records _).1
    (by rw [tableOf_exDiskTable]; exact exRoot_dir) ['F'] (by decide) (by decide)
    (by rw [tableOf_exDiskTable]; exact exNames_file) (exRec_records _).2.2.2 rfl rfl rfl rfl
    exFile_flattened exFile_unnamed (fun _ => false) rfl 2000 (by decide) (by decide) (by decide) (by decide)
    (by decide +kernel) d hd
  exact h

set_option maxRecDepth 20000 in
example (d : Dev) (hd : d.Ok exDisk) : ∃ s d1 d2, Shell.start 2000 d = (.ok s, d1) ∧
    s.get ['F', ':', 'S'] (fun _ => false) 2000 d1 =
      (.ok (.ok 2), some (['F', '_', 'S'], [104, 105]), d2) := by
  have h := C59_end_to_end_partial (U := exUpcase) (R := exRoot) (F := exFile) exDisk_boot rfl rfl
    (exRec_hasMft _ _ _ _) (exRec_records none).2.1 exUpcase_flattened exDiskTable_length exUpcase_stored rfl
    (by rw [tableOf_exDiskTable]; rfl) rfl (exRec_records _).1
    (by rw [tableOf_exDiskTable]; exact exRoot_dir) ['F', ':', 'S'] (by decide) (by decide)
    (by rw [tableOf_exDiskTable]; exact exNames_file) (exRec_records _).2.2.2 rfl rfl rfl rfl
    exFile_flattened exFile_named (fun _ => false) rfl 2000 (by decide) (by decide) (by decide) (by decide)
    (by decide) d hd
  exact h

/-- What `dir` shows: the directory `a\b` and the file `f`. -/
example (d : Dev) (hd : d.Ok exDisk) : ∃ d',
    (Shell.mk [exRoot.base] [] (exVol (some exTable))).dir 20 d =
      (.ok (), [(true, [97, 0, 92, 0, 98, 0]), (false, [102, 0])], d') := by
  obtain ⟨d', h⟩ := C59_dir (Shell.mk [exRoot.base] [] (exVol (some exTable))) (D := exRoot) rfl exRoot_dir 20
    (by decide) (by decide) d hd
  refine ⟨d', ?_⟩
  rw [h]
  have : exRootTree.inorder.map lineOf = [(true, [97, 0, 92, 0, 98, 0]), (false, [102, 0])] := by
    decide +kernel
  rw [this]

/-- The record by its number, in hexadecimal. -/
example (d : Dev) (hd : d.Ok exDisk) : ∃ d',
    (Shell.mk [exRoot.base] [] (exVol (some exTable))).parseFileArg ['/', '0', 'x', 'c'] 20 d =
      (.ok (.ok exFile.base), d') ∧ d'.Ok exDisk :=
  C59_by_number (F := exFile) _ ['0', 'x', 'c'] 12 (by decide) (exRec_records _).2.2.2 (exRec_hasMft _ _ _ _)
    rfl 20 d hd

/-- A name that is not there, and a stream that is not there. -/
example (d : Dev) (hd : d.Ok exDisk) : ∃ d',
    (Shell.mk [exRoot.base] [] (exVol (some exTable))).parseFileArg ['g'] 20 d =
      (.ok (.error (.noSuchFile ['g'])), d') ∧ d'.Ok exDisk := by
  refine C59_no_such_file _ (D := exRoot) rfl exRoot_dir rfl exTable_ok ['g'] (by decide) (by decide) ?_ 20
    (by decide) (by decide) d hd
  show ∀ e ∈ [exEntSub, exEntFile], _
  intro e he ⟨u, h1, h2⟩
  have h3 := upper_unique h1 (exUpper 103 (by decide) .nil)
  rw [h3] at h2
  simp only [List.mem_cons, List.not_mem_nil, or_false] at he
  rcases he with rfl | rfl
  · have := h2.unique exRoot_upper.1
    simp at this
  · have := h2.unique exRoot_upper.2
    simp at this

theorem exSub_attrs : AttrAt (exFixed exDiskRec11) 56 96 ∧ AttrAt (exFixed exDiskRec11) 152 80 :=
  ⟨⟨by decide +kernel, by decide +kernel, by decide +kernel, by decide +kernel⟩,
   ⟨by decide +kernel, by decide +kernel, by decide +kernel, by decide +kernel⟩⟩

theorem exSub_flattened : Flattened exSub [.own 56, .own 152] (.ok none) :=
  .plain (V := exSub) [56, 152] 232 (.ok none)
    (by show 32 ≤ (exFixed exDiskRec11).length; decide +kernel)
    (.cons exSub_attrs.1 (.cons exSub_attrs.2 (.nil 232)))
    (by show ∀ o ∈ [56, 152], field (exFixed exDiskRec11) o 4 ≠ 0x20; decide +kernel)
    (.inl ⟨fun _ => by show field (exFixed exDiskRec11) 232 4 = _; decide +kernel, rfl⟩)

def exSubName : FileName := fileNameAt ((exFixed exDiskRec11).drop 80 |>.take 72)

theorem exSub_nameAt (t : Option (List Nat)) : nameAt (exRec exDiskRec11 2048 11 t).base 56 = .ok exSubName := by
  show nameAt (exRec exDiskRec11 2048 11 none).base 56 = _
  decide +kernel

theorem exSub_named :
    (∀ s ∈ [Step.own 56, .own 152], ∀ file off, s.At exSub file off →
      field file.recordData off 4 = 0x30 → Placed file off) ∧
    CleanNames exSub [.own 56, .own 152] (.ok none) ∧
    BestNamed exSub [.own 56, .own 152] exRoot.base.fileRecordNumber exSubName := by
  have at1 : ∀ file off, (Step.own 56).At exSub file off → file = exSub.base ∧ off = 56 := by
    rintro file off ⟨rfl, rfl, _⟩
    exact ⟨rfl, rfl⟩
  have at2 : ∀ file off, (Step.own 152).At exSub file off → file = exSub.base ∧ off = 152 := by
    rintro file off ⟨rfl, rfl, _⟩
    exact ⟨rfl, rfl⟩
  have t2 : ¬ field exSub.base.recordData 152 4 = 0x30 := by
    show ¬ field (exFixed exDiskRec11) 152 4 = 0x30
    decide +kernel
  have hp1 : ∀ s ∈ [Step.own 56, .own 152], ∀ file off, s.At exSub file off →
      field file.recordData off 4 = 0x30 → Placed file off := by
    intro s hs file off hat hty
    simp only [List.mem_cons, List.not_mem_nil, or_false] at hs
    rcases hs with rfl | rfl
    · obtain ⟨rfl, rfl⟩ := at1 _ _ hat
      show field (exFixed exDiskRec11) 64 1 = 0 ∧ 78 ≤ (exFixed exDiskRec11).length ∧
        field (exFixed exDiskRec11) 76 2 + field (exFixed exDiskRec11) 72 4 ≤ field (exFixed exDiskRec11) 60 4
      decide +kernel
    · obtain ⟨rfl, rfl⟩ := at2 _ _ hat
      exact absurd hty t2
  have hp2 : CleanNames exSub [.own 56, .own 152] (.ok none) := by
    refine ⟨rfl, ?_⟩
    intro p hp
    simp only [List.mem_cons, List.not_mem_nil, or_false] at hp
    rcases hp with rfl | rfl
    · refine ⟨exSub.base, 56, ⟨rfl, rfl, _, exSub_attrs.1⟩, ?_, fun _ => ⟨_, exSub_nameAt _⟩⟩
      show field (exFixed exDiskRec11) 56 4 ∈ _
      decide +kernel
    · refine ⟨exSub.base, 152, ⟨rfl, rfl, _, exSub_attrs.2⟩, ?_, fun h => absurd h t2⟩
      show field (exFixed exDiskRec11) 152 4 ∈ _
      decide +kernel
  have hp3 : BestNamed exSub [.own 56, .own 152] exRoot.base.fileRecordNumber exSubName := by
    refine ⟨[], .own 56, [.own 152], exSub.base, 56, rfl, ⟨rfl, rfl, _, exSub_attrs.1⟩,
      ⟨?_, exSub_nameAt _, ?_⟩, by simp, ?_⟩
    · show field (exFixed exDiskRec11) 56 4 = _
      decide +kernel
    · show field (((exFixed exDiskRec11).drop (56 + field (exFixed exDiskRec11) (56 + 20) 2)).take
        (field (exFixed exDiskRec11) (56 + 16) 4)) 0 8 % 2 ^ 48 = 5
      decide +kernel
    · intro p hp f o m g1 g2
      simp only [List.mem_cons, List.not_mem_nil, or_false] at hp
      subst hp
      obtain ⟨rfl, rfl⟩ := at2 _ _ g1
      exact absurd g2.1 t2
  exact ⟨hp1, hp2, hp3⟩

/-- `cd a\b` on the example volume. -/
theorem exDisk_cd (d : Dev) (hd : d.Ok exDisk) : ∃ d',
    (Shell.mk [exRoot.base] [] (exVol (some exTable))).cd ['a', '\\', 'b'] 20 d =
      (.ok (none, Shell.mk [exSub.base, exRoot.base] ['a', '\\', 'b'] (exVol (some exTable))), d') ∧
      d'.Ok exDisk := by
  obtain ⟨hp1, hp2, hp3⟩ := exSub_named
  obtain ⟨d', h, hd'⟩ := C59_cd (Shell.mk [exRoot.base] [] (exVol (some exTable))) (D := exRoot) (F := exSub)
    rfl exRoot_dir rfl exTable_ok ['a', '\\', 'b'] (by decide) (by decide) exNames_sub (by decide +kernel)
    (exRec_records _).2.2.1 (exRec_hasMft _ _ _ _) rfl rfl exSub_flattened hp1 hp2 hp3 20
    (by decide) (by decide) (by decide) d hd
  refine ⟨d', ?_, hd'⟩
  rw [h]
  have : extendPath [] (lossy (u16s exSubName.name)) = ['a', '\\', 'b'] := by decide +kernel
  dsimp only
  rw [this]

/-- `get a\b`: the directory has no data, but an empty output file is left behind. -/
example (d : Dev) (hd : d.Ok exDisk) : ∃ d',
    (Shell.mk [exRoot.base] [] (exVol (some exTable))).get ['a', '\\', 'b'] (fun _ => false) 20 d =
      (.ok (.error (.noDataAttribute [])), some (['a', '\\', 'b'], []), d') ∧ d'.Ok exDisk := by
  obtain ⟨d1, e1, hd1⟩ := C59_by_name (Shell.mk [exRoot.base] [] (exVol (some exTable))) (D := exRoot)
    (F := exSub) rfl exRoot_dir rfl exTable_ok ['a', '\\', 'b'] (by decide) (by decide) exNames_sub
    (exRec_records _).2.2.1 (exRec_hasMft _ _ _ _) rfl rfl 20 (by decide) (by decide) d hd
  refine C59_get_no_stream _ (F := exSub) ['a', '\\', 'b'] (fun _ => false) rfl 20 d d1 hd1 e1 exSub_flattened
    (fun h => absurd rfl h) ⟨rfl, ?_⟩ (by decide)
  intro p hp
  simp only [List.mem_cons, List.not_mem_nil, or_false] at hp
  rcases hp with rfl | rfl
  · refine ⟨_, _, ⟨rfl, rfl, _, exSub_attrs.1⟩, ?_, fun h => absurd h ?_⟩
    · show field (exFixed exDiskRec11) 56 4 ∈ _; decide +kernel
    · show ¬ field (exFixed exDiskRec11) 56 4 = _; decide +kernel
  · refine ⟨_, _, ⟨rfl, rfl, _, exSub_attrs.2⟩, ?_, fun h => absurd h ?_⟩
    · show field (exFixed exDiskRec11) 152 4 ∈ _; decide +kernel
    · show ¬ field (exFixed exDiskRec11) 152 4 = _; decide +kernel

/-- **C57** fails: on this sound volume, after `cd a\b` two times `cd ..` are accepted, and the next `cd`
ends the program. The directory stack is empty then, while the shell thinks it is in the directory `a`
after the first and in the root directory after the second `cd ..`. -/
theorem C57_negation : ∃ img : Bytes, ∀ d : Dev, d.Ok img → ∃ s d1, Shell.start 20 d = (.ok s, d1) ∧ InStep s ∧
    (∃ s1 d2, Shell.cds 20 [['a', '\\', 'b'], ['.', '.']] s d1 = (.ok s1, d2) ∧ s1.path = ['a'] ∧
      s1.stack = s.stack) ∧
    (∃ s2 d3, Shell.cds 20 [['a', '\\', 'b'], ['.', '.'], ['.', '.']] s d1 = (.ok s2, d3) ∧ s2.path = [] ∧
      s2.stack = []) ∧
    ∃ d4, Shell.cds 20 [['a', '\\', 'b'], ['.', '.'], ['.', '.'], ['x']] s d1 = (.panic .unwrap, d4) := by
  refine ⟨exDisk, fun d hd => ?_⟩
  obtain ⟨d1, e1, hd1⟩ := exDisk_start d hd
  obtain ⟨d2, e2, hd2⟩ := exDisk_cd d1 hd1
  have step : ∀ args, Shell.cds 20 (['a', '\\', 'b'] :: args)
      (Shell.mk [exRoot.base] [] (exVol (some exTable))) d1 = Shell.cds 20 args
        (Shell.mk [exSub.base, exRoot.base] ['a', '\\', 'b'] (exVol (some exTable))) d2 := by
    intro args
    conv => lhs; unfold Shell.cds
    rw [e2]
  refine ⟨_, d1, e1, ⟨[], rfl, by simp, rfl⟩, ?_, ?_, ?_⟩
  · rw [step]
    exact ⟨Shell.mk [exRoot.base] ['a'] (exVol (some exTable)), d2, rfl, rfl, rfl⟩
  · rw [step]
    exact ⟨Shell.mk [] [] (exVol (some exTable)), d2, rfl, rfl, rfl⟩
  · rw [step]
    exact ⟨d2, rfl⟩

/-- `C59_get` alone, after the name has been looked up. -/
example (d d1 : Dev) (hd1 : d1.Ok exDisk)
    (h : (Shell.mk [exRoot.base] [] (exVol (some exTable))).parseFileArg ['F'] 2000 d = (.ok (.ok exFile.base), d1)) :=
  C59_get _ (F := exFile) ['F'] (fun _ => false) rfl 2000 d d1 hd1 h exFile_flattened (fun h => absurd rfl h)
    exFile_unnamed (by decide) (by decide +kernel)

end NT
