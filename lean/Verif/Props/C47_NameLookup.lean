import Verif.Props.C46_DataLookup
import Verif.Props.C38_StructuredValues

/-! C47: the lookup of a file name with filters. -/

namespace NT

open Spec

variable {V : View}

/-- The code of a namespace in a `$FILE_NAME` value. -/
def Spec.nsCode : Namespace → Nat
  | .posix => 0
  | .win32 => 1
  | .dos => 2
  | .win32AndDos => 3

/-- The attribute at `off` is resident and its value lies inside it. -/
def Placed (file : NFile) (off : Nat) : Prop :=
  field file.recordData (off + 8) 1 = 0 ∧ off + 22 ≤ file.recordData.length ∧
    field file.recordData (off + 20) 2 + field file.recordData (off + 16) 4 ≤
      field file.recordData (off + 4) 4

/-- The bytes of the resident value of the attribute at `off`. -/
def valueAt (file : NFile) (off : Nat) : Bytes :=
  (file.recordData.drop (off + field file.recordData (off + 20) 2)).take
    (field file.recordData (off + 16) 4)

/-- What the value of the `$FILE_NAME` attribute at `off` decodes to. -/
def nameAt (file : NFile) (off : Nat) : Res FileName :=
  fileNameRes (valueAt file off) (Pos.add (Pos.add file.position off) 0)
    (field file.recordData (off + 16) 4)

/-- A `$FILE_NAME` value passes the filters: its namespace and the record number of the parent
directory are the given ones, as far as they are given. -/
def NameFits (val : Bytes) (ns : Option Namespace) (parent : Option Nat) : Prop :=
  (∀ x, ns = some x → field val 65 1 = nsCode x) ∧
    (∀ p, parent = some p → field val 0 8 % 2 ^ 48 = p)

def NameHit (ns : Option Namespace) (parent : Option Nat) (_ : Step) (file : NFile) (off : Nat)
    (n : FileName) : Prop :=
  field file.recordData off 4 = 0x30 ∧ nameAt file off = .ok n ∧ NameFits (valueAt file off) ns parent

def NameMiss (ns : Option Namespace) (parent : Option Nat) (file : NFile) (off : Nat) : Prop :=
  field file.recordData off 4 ∈ typeCodes ∧ (field file.recordData off 4 = 0x30 →
    (∃ n, nameAt file off = .ok n) ∧ ¬ NameFits (valueAt file off) ns parent)

def NameAttrBad (file : NFile) (off : Nat) (x : Err) : Prop :=
  TypeBad file off x ∨ (field file.recordData off 4 = 0x30 ∧ nameAt file off = .err x)

theorem FileName.matches_eq {val : Bytes} {pos : Pos} {len : Nat} {n : FileName}
    (h : fileNameRes val pos len = .ok n) (ns : Option Namespace) (parent : Option Nat) :
    (NameFits val ns parent ∧ n.matches ns parent = .ok true) ∨
    (¬ NameFits val ns parent ∧ n.matches ns parent = .ok false) := by
  have hns := C38_namespace val pos len n h
  have hpar : n.parent.fileRecordNumber = field val 0 8 % 2 ^ 48 := by
    unfold fileNameRes at h
    split at h; · cases h
    split at h; · cases h
    split at h; · cases h
    split at h; · cases h
    split at h; · cases h
    injection h with h
    subst h
    exact Nat.and_two_pow_sub_one_eq_mod _ 48
  have hlt : field val 65 1 < 4 := by
    unfold fileNameRes at h
    split at h; · cases h
    split at h; · cases h
    split at h; · cases h
    split at h; · cases h
    split at h; · cases h
    rename_i _ _ _ h4 _
    omega
  have hfit : ∀ x, (field val 65 1 = nsCode x ∧ n.namespace' = .ok x) ∨
      (field val 65 1 ≠ nsCode x ∧ ∃ y, n.namespace' = .ok y ∧ y ≠ x) := by
    intro x
    rw [hns]
    revert hlt
    generalize field val 65 1 = k
    intro hlt
    match k, hlt with
    | 0, _ => cases x <;> simp [nsCode]
    | 1, _ => cases x <;> simp [nsCode]
    | 2, _ => cases x <;> simp [nsCode]
    | 3, _ => cases x <;> simp [nsCode]
    | k + 4, h4 => omega
  unfold FileName.matches NameFits
  cases ns with
  | none =>
    cases parent with
    | none => exact .inl ⟨⟨by simp, by simp⟩, rfl⟩
    | some p =>
      by_cases hp : field val 0 8 % 2 ^ 48 = p
      · refine .inl ⟨⟨by simp, by rintro _ ⟨⟩; exact hp⟩, ?_⟩
        show Res.ok (n.parent.fileRecordNumber == p) = _
        rw [hpar, hp, beq_self_eq_true]
      · refine .inr ⟨fun h => hp (h.2 p rfl), ?_⟩
        show Res.ok (n.parent.fileRecordNumber == p) = _
        rw [hpar, beq_false_of_ne hp]
  | some x =>
    rcases hfit x with ⟨h1, h2⟩ | ⟨h1, y, h2, h3⟩
    · simp only [h2, Res.bind_ok]
      have e : (x == x) = true := by cases x <;> rfl
      cases parent with
      | none =>
        refine .inl ⟨⟨by rintro _ ⟨⟩; exact h1, by simp⟩, ?_⟩
        simp [Res.bind_ok, Res.pure_eq]
      | some p =>
        by_cases hp : field val 0 8 % 2 ^ 48 = p
        · refine .inl ⟨⟨by rintro _ ⟨⟩; exact h1, by rintro _ ⟨⟩; exact hp⟩, ?_⟩
          simp [Res.bind_ok, Res.pure_eq, hpar, hp]
        · refine .inr ⟨fun h => hp (h.2 p rfl), ?_⟩
          simp [Res.bind_ok, Res.pure_eq, hpar, hp]
    · refine .inr ⟨fun h => h1 (h.1 x rfl), ?_⟩
      simp [Res.bind_ok, Res.pure_eq, h2, h3]

/-- C47: `name(ns, parent)`, for every sequence of flattened attributes whose `$FILE_NAME` attributes
are resident with values inside them: it gives the first `$FILE_NAME` that passes the filters, `None`
iff there is none and all attributes can be loaded and decoded, and an error iff an attribute before
the first match cannot be loaded or decoded. -/
theorem C47_name {steps : List Step} {r : Res (Option AttrItem)} (h : Flattened V steps r)
    (hpl : ∀ s ∈ steps, ∀ file off, s.At V file off → field file.recordData off 4 = 0x30 →
      Placed file off)
    (ns : Option Namespace) (parent : Option Nat)
    (fuel : Nat) (hfuel : steps.length < fuel) (d : Dev) (hd : d.Ok V.img) :
    ∃ q d', V.base.fileName ns parent fuel d = (q, d') ∧ d'.Ok V.img ∧
      FirstHit V (NameHit ns parent) (NameMiss ns parent) NameAttrBad steps r q := by
  unfold NFile.fileName
  refine NFile.search_firstHit _ _ _ _ ?_ ?_ ?_ ?_ h ?_ fuel hfuel d hd
  · rintro s f o i ⟨h1, h2⟩ ⟨g1, g2, g3⟩
    exact (h2 g1).2 g3
  · rintro f o x ⟨h1, h2⟩ (⟨g1, _⟩ | ⟨g1, g2⟩)
    · exact g1 h1
    · obtain ⟨⟨n, h3⟩, _⟩ := h2 g1
      rw [g2] at h3; cases h3
  · rintro s f o i x ⟨g1, g2, g3⟩ (⟨h1, _⟩ | ⟨_, h2⟩)
    · rw [g1] at h1; exact h1 (by decide)
    · rw [g2] at h2; cases h2
  · rintro f o x y (⟨h1, rfl⟩ | ⟨h1, h2⟩) (⟨g1, rfl⟩ | ⟨g1, g2⟩)
    · rfl
    · rw [g1] at h1; exact absurd (by decide) h1
    · rw [h1] at g1; exact absurd (by decide) g1
    · rw [h2] at g2; injection g2
  · intro s hs i file hres hat hv hl d hd
    show ∃ q d', pickName ns parent ⟨file, i.offset, i.list⟩ d = (q, d') ∧ _
    unfold pickName
    by_cases hty : field file.recordData i.offset 4 ∈ typeCodes
    case neg =>
      refine ⟨_, d, StM.bind_of_err (e := .unsupportedAttributeType (Pos.add file.position i.offset)
        (field file.recordData i.offset 4)) (s' := d) ?_, hd, .bad file i.offset _ hat (.inl ⟨hty, rfl⟩)⟩
      rw [StM.lift_apply, Attr.ty_bad hv.header hty]
    obtain ⟨t, htc⟩ := (typeCodes_iff _).1 hty
    have ety : Attr.ty ⟨file, i.offset, i.list⟩ = .ok t :=
      (Attr.ty_ok_iff (a := ⟨file, i.offset, i.list⟩) hv.header).2 htc
    rw [StM.bind_of_ok (a := t) (s' := d) (by rw [StM.lift_apply, ety])]
    by_cases htd : t = .fileName
    case neg =>
      rw [if_pos htd]
      refine ⟨_, d, rfl, hd, .miss file i.offset hat ⟨hty, fun h => absurd ?_ htd⟩⟩
      rw [htc] at h
      exact AttrType.code_inj (t := .fileName) h
    subst htd
    rw [if_neg (by simp)]
    obtain ⟨p1, p2, p3⟩ := hpl s hs file i.offset hat htc
    have hl0 := hl p1
    rw [hl0] at hv ety ⊢
    have hin := hv.inside
    simp only [Attr.recordData] at hin
    -- the value
    have ev := C20_resident_value_exact file i.offset none ⟨file, i.offset, none⟩
      (Attr.new_ok_iff.2 ⟨rfl, hv⟩) p1 p2 _ _ _ rfl rfl rfl
    rw [if_neg (by omega), if_neg (by omega)] at ev
    obtain ⟨b, hb⟩ : ∃ b, b = valueAt file i.offset := ⟨_, rfl⟩
    have hblen : b.length = field file.recordData (i.offset + 16) 4 := by
      rw [hb]
      unfold valueAt
      rw [List.length_take, List.length_drop]; omega
    have hval : Attr.value ⟨file, i.offset, none⟩ d =
        (.ok (.simple (.res ⟨b, Pos.add file.position i.offset, 0⟩)), d) := by
      unfold Attr.value
      dsimp only
      rw [StM.bind_of_ok (a := _) (s' := d) (by rw [StM.lift_apply, ev])]
      rw [hb]
      rfl
    have hdp : (Val.simple (.res ⟨b, Pos.add file.position i.offset, 0⟩)).dataPosition =
        Pos.add (Pos.add file.position i.offset) 0 := by
      unfold Val.dataPosition SVal.dataPosition
      dsimp only
      unfold ResVal.dataPosition
      exact if_pos (Nat.zero_le _)
    obtain ⟨d', e, hd'⟩ := FileName.decodes.ofValue V.img b
      (.simple (.res ⟨b, Pos.add file.position i.offset, 0⟩)) rfl rfl d hd
    have hsv : Attr.structuredValue FileName.structured ⟨file, i.offset, none⟩ d =
        (nameAt file i.offset, d') := by
      unfold Attr.structuredValue
      have he : Attr.ensureTy ⟨file, i.offset, none⟩ FileName.structured.ty = .ok () := by
        unfold Attr.ensureTy
        rw [ety, Res.bind_ok, if_neg (by intro h; exact h rfl)]
      rw [StM.bind_of_ok (a := ()) (s' := d) (by rw [StM.lift_apply, he]), StM.bind_of_ok hval, e, hdp]
      show (fileNameRes b _ b.length, d') = _
      rw [hblen, hb]
      rfl
    cases hn : nameAt file i.offset with
    | ok n =>
      rw [hn] at hsv
      rw [StM.bind_of_ok hsv]
      rcases FileName.matches_eq hn ns parent with ⟨m1, m2⟩ | ⟨m1, m2⟩
      · refine ⟨_, d', StM.bind_of_ok (a := true) (s' := d') (by rw [StM.lift_apply, m2]), hd', ?_⟩
        exact .hit file i.offset n hat ⟨htc, hn, m1⟩
      · refine ⟨_, d', StM.bind_of_ok (a := false) (s' := d') (by rw [StM.lift_apply, m2]), hd', ?_⟩
        exact .miss file i.offset hat ⟨hty, fun _ => ⟨⟨n, hn⟩, m1⟩⟩
    | err x =>
      rw [hn] at hsv
      exact ⟨_, d', StM.bind_of_err hsv, hd', .bad file i.offset x hat (.inr ⟨htc, hn⟩)⟩
    | panic p =>
      have := (C38_never_panics (valueAt file i.offset) (Pos.add (Pos.add file.position i.offset) 0)
        (field file.recordData (i.offset + 16) 4)).2.1
      unfold nameAt at hn
      rw [hn] at this
      exact this.elim
    | diverge =>
      have := (C38_never_panics (valueAt file i.offset) (Pos.add (Pos.add file.position i.offset) 0)
        (field file.recordData (i.offset + 16) 4)).2.1
      unfold nameAt at hn
      rw [hn] at this
      exact this.elim

/-- A `$FILE_NAME` attribute of 96 bytes: `par` is the low byte of the parent record number, `ns` the
namespace, the name is one letter. -/
def exNameAttr (par ns c : UInt8) : Bytes :=
  [0x30, 0, 0, 0, 96, 0, 0, 0,  0, 0, 24, 0, 0, 0, 0, 0,  68, 0, 0, 0, 24, 0, 0, 0] ++
  [par, 0, 0, 0, 0, 0, 5, 0] ++ List.replicate 56 0 ++ [1, ns, c, 0] ++ [0, 0, 0, 0]

/-- A record with a DOS name and a Win32 name in directory 5 and a Win32 name in directory 9. -/
def exNames : Bytes :=
  [0x46, 0x49, 0x4C, 0x45, 48, 0, 1, 0,  0, 0, 0, 0, 0, 0, 0, 0,
   1, 0, 1, 0, 56, 0, 1, 0,  96, 1, 0, 0, 96, 1, 0, 0,
   0, 0, 0, 0, 0, 0, 0, 0,  3, 0, 0, 0, 0, 0, 0, 0,
   0, 0, 0, 0, 0, 0, 0, 0] ++ exNameAttr 5 2 65 ++ exNameAttr 5 1 97 ++ exNameAttr 9 1 98 ++
  [0xFF, 0xFF, 0xFF, 0xFF, 0, 0, 0, 0]

def exNamesView : View := ⟨exNtfs, [], [], ⟨exNtfs, ⟨exNames, some 512⟩, 7⟩⟩

set_option maxRecDepth 20000 in
theorem exNames_flattened : Flattened exNamesView [.own 56, .own 152, .own 248] (.ok none) :=
  .plain (V := exNamesView) [56, 152, 248] 344 (.ok none) (by decide)
    (.cons (len := 96) ⟨by decide, by decide, by decide, by decide⟩
      (.cons (len := 96) ⟨by decide, by decide, by decide, by decide⟩
        (.cons (len := 96) ⟨by decide, by decide, by decide, by decide⟩ (.nil 344))))
    (by decide) (.inl ⟨fun _ => by decide, rfl⟩)

set_option maxRecDepth 20000 in
/-- Asking for the Win32 name in any directory gives the second name, asking for a name in directory 9
gives the third, and there is no POSIX name. -/
example (d : Dev) (hd : d.Ok []) :
    (∃ n d', exNamesView.base.fileName (some .win32) none 4 d = (.ok (some n), d') ∧ n.name = [97, 0]) ∧
    (∃ n d', exNamesView.base.fileName none (some 9) 4 d = (.ok (some n), d') ∧ n.name = [98, 0]) ∧
    (∃ d', exNamesView.base.fileName (some .posix) (some 5) 4 d = (.ok none, d')) := by
  have hpl : ∀ s ∈ [Step.own 56, .own 152, .own 248], ∀ file off, s.At exNamesView file off →
      field file.recordData off 4 = 0x30 → Placed file off := by
    intro s hs file off ha _
    simp only [List.mem_cons, List.not_mem_nil, or_false] at hs
    rcases hs with rfl | rfl | rfl <;> obtain ⟨rfl, rfl, _⟩ := ha <;>
      exact ⟨by decide, by decide, by decide⟩
  have a : ∀ o ∈ [56, 152, 248], Step.At exNamesView (.own o) exNamesView.base o := by
    intro o ho
    simp only [List.mem_cons, List.not_mem_nil, or_false] at ho
    rcases ho with rfl | rfl | rfl <;>
      exact ⟨rfl, rfl, 96, by decide, by decide, by decide, by decide⟩
  have m : ∀ o ∈ [56, 152, 248], ∀ ns parent, ¬ NameFits (valueAt exNamesView.base o) ns parent →
      ∃ f p, Step.At exNamesView (.own o) f p ∧ NameMiss ns parent f p := by
    intro o ho ns parent hn
    refine ⟨_, _, a o ho, ?_, fun _ => ⟨?_, hn⟩⟩
    · simp only [List.mem_cons, List.not_mem_nil, or_false] at ho
      rcases ho with rfl | rfl | rfl <;> decide
    · refine ⟨fileNameAt (valueAt exNamesView.base o), ?_⟩
      simp only [List.mem_cons, List.not_mem_nil, or_false] at ho
      rcases ho with rfl | rfl | rfl <;> decide
  refine ⟨?_, ?_, ?_⟩
  · obtain ⟨q, d', e, _, hq⟩ := C47_name exNames_flattened hpl (some .win32) none 4 (by decide) d hd
    obtain ⟨y, rfl, hy⟩ := hq.finds [.own 56] (.own 152) [.own 248] exNamesView.base 152
      (fileNameAt (valueAt exNamesView.base 152)) rfl
      (by
        intro p hp
        simp only [List.mem_cons, List.not_mem_nil, or_false] at hp
        subst hp
        exact m 56 (by simp) _ _ (fun h => absurd (h.1 _ rfl) (by decide)))
      (a 152 (by simp)) ⟨by decide, by decide, by rintro _ ⟨⟩; decide, by simp⟩
    have e2 : nameAt exNamesView.base 152 = .ok (fileNameAt (valueAt exNamesView.base 152)) := by decide
    have := hy.2.1
    rw [e2] at this
    injection this with this
    exact ⟨y, d', e, by rw [← this]; decide⟩
  · obtain ⟨q, d', e, _, hq⟩ := C47_name exNames_flattened hpl none (some 9) 4 (by decide) d hd
    obtain ⟨y, rfl, hy⟩ := hq.finds [.own 56, .own 152] (.own 248) [] exNamesView.base 248
      (fileNameAt (valueAt exNamesView.base 248)) rfl
      (by
        intro p hp
        simp only [List.mem_cons, List.not_mem_nil, or_false] at hp
        rcases hp with rfl | rfl
        · exact m 56 (by simp) _ _ (fun h => absurd (h.2 _ rfl) (by decide))
        · exact m 152 (by simp) _ _ (fun h => absurd (h.2 _ rfl) (by decide)))
      (a 248 (by simp)) ⟨by decide, by decide, by simp, by rintro _ ⟨⟩; decide⟩
    have e2 : nameAt exNamesView.base 248 = .ok (fileNameAt (valueAt exNamesView.base 248)) := by decide
    have := hy.2.1
    rw [e2] at this
    injection this with this
    exact ⟨y, d', e, by rw [← this]; decide⟩
  · obtain ⟨q, d', e, _, hq⟩ := C47_name exNames_flattened hpl (some .posix) (some 5) 4 (by decide) d hd
    have := hq.none_iff.2 ⟨rfl, by
      intro p hp
      simp only [List.mem_cons, List.not_mem_nil, or_false] at hp
      rcases hp with rfl | rfl | rfl
      · exact m 56 (by simp) _ _ (fun h => absurd (h.1 _ rfl) (by decide))
      · exact m 152 (by simp) _ _ (fun h => absurd (h.1 _ rfl) (by decide))
      · exact m 248 (by simp) _ _ (fun h => absurd (h.1 _ rfl) (by decide))⟩
    subst this
    exact ⟨d', e⟩

end NT
