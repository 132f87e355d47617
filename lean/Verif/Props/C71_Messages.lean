import Verif.Lemmas.Messages
import Verif.Lemmas.Attribute
import Verif.Lemmas.IndexRecord
import Verif.Props.C18_Attributes
import Verif.Props.C29_IndexPanics

/-! C71: what the messages of errors tell. A message determines the error it belongs to, with all
values that the error carries, apart from one error. The positions can be read off. The sizes that a
message compares are the ones stored and available in the case of file records; the messages about
index records confuse them, and two others claim sizes that nothing has. -/

namespace NT
open Spec

theorem Err.ctorIdx_lt (e : Err) : e.ctorIdx < 48 := by
  cases e <;> (simp only [Err.ctorIdx]; decide)

/-- C71: two errors with the same message are the same, with all their fields, unless both are
`TotalSectorsTooBig`. `dbg`, the text of the errors of the reader, is arbitrary but for telling these
errors apart. -/
theorem C71_tells_partial (dbg : IoErr → List Char) (hd : ∀ a b, dbg a = dbg b → a = b)
    (e e' : Err) :
    e.display dbg = e'.display dbg ↔
      e = e' ∨ ∃ m n, e = .totalSectorsTooBig m ∧ e' = .totalSectorsTooBig n := by
  constructor
  · intro h
    obtain ⟨s, hs, hf⟩ := Err.frame_sample dbg e
    obtain ⟨t, ht, hg⟩ := Err.frame_sample dbg e'
    have hi : e.ctorIdx = e'.ctorIdx := by
      apply Classical.byContradiction
      intro hne
      have hc := Err.samples_clash ⟨_, e.ctorIdx_lt⟩ ⟨_, e'.ctorIdx_lt⟩
        (fun he => hne (congrArg Fin.val he)) s t hs ht
      rw [← hf, ← hg] at hc
      exact render_ne (Err.pieces_separated dbg e) (Err.pieces_separated dbg e') hc h
    by_cases h35 : e.ctorIdx = 35
    · right
      have h35' : e'.ctorIdx = 35 := hi ▸ h35
      have key : ∀ x : Err, x.ctorIdx = 35 → ∃ m, x = .totalSectorsTooBig m := by
        intro x hx
        cases x <;> first
          | exact ⟨_, rfl⟩
          | (exfalso; revert hx; simp only [Err.ctorIdx]; decide)
      obtain ⟨m, rfl⟩ := key e h35
      obtain ⟨n, rfl⟩ := key e' h35'
      exact ⟨m, n, rfl, rfl⟩
    · left
      rw [hi, ht, Option.some.injEq] at hs
      subst hs
      exact Err.pieces_inj hd hi h35
        (render_inj (Err.pieces_separated dbg e) (Err.pieces_separated dbg e') (hf.trans hg.symm) h)
  · rintro (rfl | ⟨m, n, rfl, rfl⟩)
    · rfl
    · rfl

/-- C71: the message of `TotalSectorsTooBig` does not tell which sector count was too big. -/
theorem C71_total_sectors_negation :
    ¬ ∀ (dbg : IoErr → List Char), (∀ a b, dbg a = dbg b → a = b) →
      ∀ e e' : Err, e.display dbg = e'.display dbg → e = e' := by
  intro h
  have hd : ∀ a b : IoErr, (match a with
      | .interrupted => dec 0 | .unexpectedEof => dec 1 | .invalidInput => dec 2
      | .other c => dec (c + 3)) = (match b with
      | .interrupted => dec 0 | .unexpectedEof => dec 1 | .invalidInput => dec 2
      | .other c => dec (c + 3)) → a = b := by
    intro a b hab
    cases a <;> cases b <;> simp only [dec_inj] at hab ⊢ <;>
      first | omega | (congr 1; omega)
  have := h _ hd (.totalSectorsTooBig 1) (.totalSectorsTooBig 2) rfl
  exact absurd this (by decide)

/-- There are texts for the errors of the reader that tell them apart. -/
example : ∃ dbg : IoErr → List Char, ∀ a b, dbg a = dbg b → a = b :=
  ⟨fun
    | .interrupted => dec 0 | .unexpectedEof => dec 1 | .invalidInput => dec 2
    | .other c => dec (c + 3), by
    intro a b hab
    cases a <;> cases b <;> simp only [dec_inj] at hab ⊢ <;> first | omega | (congr 1; omega)⟩

namespace Spec

/-- How a position is written: `<NONE>`, or `0x` and hexadecimal digits with its value. -/
def WritesPos (p : Pos) (l : List Char) : Prop :=
  match p with
  | none => l = "<NONE>".toList
  | some n => ∃ ds, l = '0' :: 'x' :: ds ∧ ds ≠ [] ∧
      (∀ c ∈ ds, ('0' ≤ c ∧ c ≤ '9') ∨ ('a' ≤ c ∧ c ≤ 'f')) ∧ hexValue ds = n

/-- The position that an error carries. -/
def position : Err → Option Pos
  | .attributeNotFound p _ | .attributeOfDifferentType p _ _ | .invalidAttributeLength p _ _
  | .invalidAttributeNameLength p _ _ | .invalidAttributeNameOffset p _ _
  | .invalidByteCountInDataRunHeader p _ _ | .invalidClusterCountInDataRunHeader p _
  | .invalidFileAllocatedSize p _ _ | .invalidFileSignature p _ | .invalidFileUsedSize p _ _
  | .invalidIndexAllocatedSize p _ _ | .invalidIndexEntryDataRange p _ _ _
  | .invalidIndexEntrySize p _ _ | .invalidIndexRootEntriesOffset p _ _
  | .invalidIndexRootUsedSize p _ _ | .invalidIndexSignature p _ | .invalidIndexUsedSize p _ _
  | .invalidNonResidentValueDataRange p _ _ _ | .invalidResidentAttributeValueLength p _ _ _
  | .invalidResidentAttributeValueOffset p _ _ | .invalidStructuredValueSize p _ _ _
  | .invalidUpdateSequenceCount p _ | .invalidUpdateSequenceNumberRange p _ _ _
  | .invalidVcnInDataRunHeader p _ _ | .missingIndexAllocation p | .notADirectory p
  | .unexpectedAttributeListAttribute p | .unexpectedNonResidentAttribute p
  | .unexpectedResidentAttribute p | .unsupportedAttributeType p _ | .unsupportedFileNamespace p _
  | .updateSequenceArrayExceedsRecordSize p _ _ | .updateSequenceNumberMismatch p _ _
  | .vcnMismatchInIndexAllocation p _ _ | .vcnOutOfBoundsInIndexAllocation p _ => some p
  | .invalidTwoByteSignature _ => some (some 510)
  | .invalidFileRecordNumber _ | .invalidMftLcn | .invalidRecordSizeInfo _ _
  | .invalidSectorsPerCluster _ | .invalidTime | .invalidUpcaseTableSize _ _ | .io _ | .lcnTooBig _
  | .totalSectorsTooBig _ | .unsupportedClusterSize _ _ _ | .unsupportedSectorSize _ _ _
  | .vcnTooBig _ => none

end Spec

theorem posHex_writes (p : Pos) : Spec.WritesPos p (posHex p) := by
  cases p with
  | none => rfl
  | some n =>
    refine ⟨lowerHex n, ?_, lowerHex_ne_nil n, ?_, hexValue_lowerHex n⟩
    · simp [posHex, hexAlt]
    · intro c hc
      exact lowerHex_digit n hc |>.imp
        (fun h => ⟨by show 48 ≤ c.toNat; exact h.1, by show c.toNat ≤ 57; omega⟩)
        (fun h => ⟨by show 97 ≤ c.toNat; exact h.1, by show c.toNat ≤ 102; omega⟩)

/-- Somewhere in the pieces a text ends with `byte position ` and the position follows. -/
def NamesPos (p : Pos) : List Piece → Prop
  | .text s :: .arg a :: .text u :: r =>
      ("byte position ".toList <:+ s.toList ∧ a = posHex p ∧ u.toList.head? = some ' ') ∨
        NamesPos p r ∨ NamesPos p (.text u :: r)
  | _ => False

theorem render_names {p : Pos} : ∀ {l : List Piece}, NamesPos p l →
    ∃ a b, render l = a ++ "byte position ".toList ++ posHex p ++ ' ' :: b
  | .text s :: .arg x :: .text u :: r, h => by
    rcases h with ⟨⟨a, ha⟩, rfl, hu⟩ | h | h
    · cases hc : u.toList with
      | nil => rw [hc] at hu; cases hu
      | cons c t =>
        rw [hc, List.head?_cons, Option.some.injEq] at hu
        subst hu
        refine ⟨a, t ++ render r, ?_⟩
        simp only [render]
        rw [← ha, hc]
        simp only [List.append_assoc, List.cons_append]
    · obtain ⟨a, b, hr⟩ := render_names h
      refine ⟨s.toList ++ x ++ u.toList ++ a, b, ?_⟩
      simp only [render]
      rw [hr]
      simp only [List.append_assoc]
    · obtain ⟨a, b, hr⟩ := render_names h
      refine ⟨s.toList ++ x ++ a, b, ?_⟩
      have he : render (.text s :: .arg x :: .text u :: r) =
        s.toList ++ (x ++ render (.text u :: r)) := rfl
      rw [he, hr]
      simp only [List.append_assoc]
termination_by l => l.length

/-- C71: every error that carries a position tells it in its message, in hexadecimal digits, or says
that there is none. -/
theorem C71_position (dbg : IoErr → List Char) (e : Err) (p : Pos) (h : Spec.position e = some p) :
    ∃ a w b, e.display dbg = a ++ "byte position ".toList ++ w ++ ' ' :: b ∧ Spec.WritesPos p w := by
  have hn : NamesPos p (e.pieces dbg) := by
    cases e <;> simp only [Spec.position, Option.some.injEq, reduceCtorEq] at h <;> subst h <;>
      simp only [Err.pieces, bytesPieces, rangePieces, List.cons_append, List.nil_append] <;>
      first
        | exact Or.inl ⟨by decide, rfl, rfl⟩
        | exact Or.inr (Or.inr (Or.inl ⟨by decide, rfl, rfl⟩))
  obtain ⟨a, b, hr⟩ := render_names hn
  exact ⟨a, _, b, hr, posHex_writes p⟩

/-- The message about an attribute of the wrong type at position 32768. -/
example (dbg : IoErr → List Char) :
    (Err.attributeOfDifferentType (some 32768) .data .indexRoot).display dbg =
      ("The NTFS Attribute at byte position 0x8000 should have type Data, " ++
        "but it actually has type IndexRoot").toList := by
  have h : (Err.attributeOfDifferentType (some 32768) .data .indexRoot).display dbg =
    (Err.attributeOfDifferentType (some 32768) .data .indexRoot).display (fun _ => []) := rfl
  rw [h]
  decide +kernel

/-! ### The sizes -/

namespace Spec

/-- The message about the allocated size `x` of a record of `y` bytes. -/
def saysAllocated (kind : String) (p : Pos) (x y : Nat) (l : List Char) : Prop :=
  l = "The NTFS ".toList ++ kind.toList ++ " Record at byte position ".toList ++ posHex p ++
    " indicates an allocated size of ".toList ++ dec x ++
    " bytes, but the record only has a size of ".toList ++ dec y ++ " bytes".toList

/-- The message about the used size `x` of a record with `y` allocated bytes. -/
def saysUsed (kind : String) (p : Pos) (x y : Nat) (l : List Char) : Prop :=
  l = "The NTFS ".toList ++ kind.toList ++ " Record at byte position ".toList ++ posHex p ++
    " indicates a used size of ".toList ++ dec x ++
    " bytes, but only ".toList ++ dec y ++ " bytes are allocated".toList

/-- The message about an attribute with a length of `x` bytes where `y` are left. -/
def saysLength (p : Pos) (x y : Nat) (l : List Char) : Prop :=
  l = "The NTFS Attribute at byte position ".toList ++ posHex p ++ " has a length of ".toList ++
    dec x ++ " bytes, but only ".toList ++ dec y ++ " bytes are left in the record".toList

/-- The message about an entry that reports a size of `x` bytes and has `y`. -/
def saysEntry (p : Pos) (x y : Nat) (l : List Char) : Prop :=
  l = "The NTFS Index Entry at byte position ".toList ++ posHex p ++ " reports a size of ".toList ++
    dec x ++ " bytes, but it only has ".toList ++ dec y ++ " bytes".toList

end Spec

/-- C71: the numbers in the messages are written in decimal digits. -/
theorem C71_numbers (n : Nat) :
    dec n ≠ [] ∧ (∀ c ∈ dec n, '0' ≤ c ∧ c ≤ '9') ∧ decValue (dec n) = n := by
  refine ⟨dec_ne_nil n, fun c hc => ?_, decValue_dec n⟩
  have h := dec_digit n hc
  exact ⟨by show 48 ≤ c.toNat; exact h.1, by show c.toNat ≤ 57; omega⟩

theorem saysAllocated_file {dbg : IoErr → List Char} {p : Pos} {x y : Nat} :
    Spec.saysAllocated "File" p x y ((Err.invalidFileAllocatedSize p x y).display dbg) := by
  simp only [Spec.saysAllocated, Err.display, Err.pieces, render, List.append_nil,
    List.append_assoc]
  rfl

theorem saysUsed_file {dbg : IoErr → List Char} {p : Pos} {x y : Nat} :
    Spec.saysUsed "File" p x y ((Err.invalidFileUsedSize p x y).display dbg) := by
  simp only [Spec.saysUsed, Err.display, Err.pieces, render, List.append_nil, List.append_assoc]
  rfl

theorem saysAllocated_index {dbg : IoErr → List Char} {p : Pos} {x y : Nat} {l : List Char} :
    Spec.saysAllocated "Index" p x y l ↔ l = (Err.invalidIndexAllocatedSize p x y).display dbg := by
  simp only [Spec.saysAllocated, Err.display, Err.pieces, render, List.append_nil,
    List.append_assoc]
  rfl

theorem saysUsed_index {dbg : IoErr → List Char} {p : Pos} {x y : Nat} {l : List Char} :
    Spec.saysUsed "Index" p x y l ↔ l = (Err.invalidIndexUsedSize p x y).display dbg := by
  simp only [Spec.saysUsed, Err.display, Err.pieces, render, List.append_nil, List.append_assoc]
  rfl

theorem saysLength_iff {dbg : IoErr → List Char} {p : Pos} {x y : Nat} {l : List Char} :
    Spec.saysLength p x y l ↔ l = (Err.invalidAttributeLength p x y).display dbg := by
  simp only [Spec.saysLength, Err.display, Err.pieces, render, List.append_nil, List.append_assoc]

theorem saysEntry_iff {dbg : IoErr → List Char} {p : Pos} {x y : Nat} {l : List Char} :
    Spec.saysEntry p x y l ↔ l = (Err.invalidIndexEntrySize p x y).display dbg := by
  simp only [Spec.saysEntry, Err.display, Err.pieces, render, List.append_nil, List.append_assoc]

/-- C71: a file record whose allocated size exceeds the record, or whose used size exceeds the
allocated size, is refused with a message that tells the stored size and the size that is there. -/
theorem C71_file_sizes (dbg : IoErr → List Char) (n : Ntfs) (data : Bytes) (p k : Nat)
    (r : Record) (hs : data.take 4 = [0x46, 0x49, 0x4C, 0x45]) (hl : 32 ≤ data.length)
    (hr : (Record.mk data (some p)).fixup = .ok r) :
    (data.length < field r.data 28 4 →
      ∃ e, NFile.ofBytes n data p k = .err e ∧
        Spec.saysAllocated "File" (some p) (field r.data 28 4) data.length (e.display dbg)) ∧
    (field r.data 28 4 ≤ data.length → field r.data 28 4 < field r.data 24 4 →
      ∃ e, NFile.ofBytes n data p k = .err e ∧
        Spec.saysUsed "File" (some p) (field r.data 24 4) (field r.data 28 4) (e.display dbg)) := by
  obtain ⟨hlen, hp⟩ := Record.fixup_length hr
  dsimp only at hlen hp
  have hof : NFile.ofBytes n data p k =
      (NFile.validateSizes ⟨n, r, k⟩).bind (fun _ => .ok ⟨n, r, k⟩) := by
    unfold NFile.ofBytes NFile.validateSignature Record.signature
    dsimp only
    rw [idxRange_ok (by omega) (by omega)]
    simp only [Res.bind_ok, List.drop_zero, Nat.sub_zero, hs, if_true, hr]
    rfl
  have hv : NFile.validateSizes ⟨n, r, k⟩ =
      if field r.data 28 4 > r.data.length then
        .err (.invalidFileAllocatedSize (some p) (field r.data 28 4) r.data.length)
      else if field r.data 24 4 > field r.data 28 4 then
        .err (.invalidFileUsedSize (some p) (field r.data 24 4) (field r.data 28 4))
      else .ok () := by
    unfold NFile.validateSizes NFile.allocatedSize NFile.dataSize NFile.position
    simp only [NFile.recordData]
    rw [readLE_ok (by omega), readLE_ok (by omega)]
    simp only [Res.bind_ok, hp]
  constructor
  · intro h
    refine ⟨_, ?_, saysAllocated_file⟩
    rw [hof, hv, if_pos (by omega), hlen]
    rfl
  · intro h1 h2
    refine ⟨_, ?_, saysUsed_file⟩
    rw [hof, hv, if_neg (by omega), if_pos h2]
    rfl

/-- C71, what the messages about index records say instead: the sizes are the right ones, but the
record is said to indicate the size that is there and to have the size that it indicates. -/
theorem C71_index_sizes_partial (dbg : IoErr → List Char) (data : Bytes) (p : Pos)
    (r : Record) (hs : data.take 4 = [0x49, 0x4E, 0x44, 0x58]) (hl : 36 ≤ data.length)
    (hr : (Record.mk data p).fixup = .ok r) :
    (data.length < 24 + field r.data 32 4 → 24 + field r.data 32 4 < U32 →
      ∃ e, IndexRecord.ofBytes data p = .err e ∧
        Spec.saysAllocated "Index" p data.length (24 + field r.data 32 4) (e.display dbg)) ∧
    (24 + field r.data 32 4 ≤ data.length → field r.data 32 4 < field r.data 28 4 →
      24 + field r.data 28 4 < U32 → 24 + field r.data 32 4 < U32 →
      ∃ e, IndexRecord.ofBytes data p = .err e ∧
        Spec.saysUsed "Index" p (24 + field r.data 32 4) (24 + field r.data 28 4)
          (e.display dbg)) := by
  obtain ⟨hlen, hp⟩ := Record.fixup_length hr
  dsimp only at hlen hp
  have hof : IndexRecord.ofBytes data p =
      (IndexRecord.validateSizes ⟨r⟩).bind (fun _ => .ok ⟨r⟩) := by
    unfold IndexRecord.ofBytes IndexRecord.validateSignature Record.signature
    dsimp only
    rw [idxRange_ok (by omega) (by omega)]
    simp only [Res.bind_ok, List.drop_zero, Nat.sub_zero, hs, if_true, hr]
    rfl
  have hv := IndexRecord.validateSizes_eq ⟨r⟩ (by dsimp only; omega)
  dsimp only at hv
  rw [hp, hlen] at hv
  constructor
  · intro h h32
    refine ⟨_, ?_, (saysAllocated_index (dbg := dbg)).2 rfl⟩
    rw [hof, hv, if_neg (by omega), if_pos (by omega)]
    rfl
  · intro h1 h2 h3 h4
    refine ⟨_, ?_, (saysUsed_index (dbg := dbg)).2 rfl⟩
    rw [hof, hv, if_neg (by omega), if_neg (by omega), if_neg (by omega), if_pos (by omega)]
    rfl

/-- Errors of the same variant with the same message agree in what is written. -/
theorem pieces_of_display {dbg : IoErr → List Char} {e e' : Err}
    (h : e.display dbg = e'.display dbg) (hf : frame (e.pieces dbg) = frame (e'.pieces dbg)) :
    e.pieces dbg = e'.pieces dbg :=
  render_inj (Err.pieces_separated dbg e) (Err.pieces_separated dbg e') hf h

/-- An index record of 512 bytes that claims 513 bytes. -/
def exBigRecord : Bytes :=
  [0x49, 0x4E, 0x44, 0x58, 40, 0, 2, 0] ++ List.replicate 16 0 ++
    [40, 0, 0, 0, 56, 0, 0, 0, 0xE9, 1, 0, 0] ++ List.replicate 4 0 ++ [7, 0, 0, 0] ++
    List.replicate 466 0 ++ [7, 0]

theorem exBigRecord_fixup : ∃ r, (Record.mk exBigRecord (some 4096)).fixup = .ok r ∧
    field r.data 32 4 = 489 ∧ field r.data 28 4 = 56 := by
  have h : ((Record.mk exBigRecord (some 4096)).fixup.bind
      (fun r => if field r.data 32 4 = 489 ∧ field r.data 28 4 = 56 then .ok () else .diverge)) =
      .ok () := by
    decide +kernel
  obtain ⟨r, h1, h2⟩ := Res.bind_eq_ok.1 h
  refine ⟨r, h1, ?_⟩
  split at h2
  · rename_i hc; exact hc
  · cases h2

/-- C71: the message about the allocated size of an index record does not tell the stored size as
the one that the record indicates. -/
theorem C71_index_sizes_negation (dbg : IoErr → List Char) :
    ¬ ∀ (data : Bytes) (p : Pos) (r : Record) (e : Err),
      (Record.mk data p).fixup = .ok r → IndexRecord.ofBytes data p = .err e →
      data.length < 24 + field r.data 32 4 →
      Spec.saysAllocated "Index" p (24 + field r.data 32 4) data.length (e.display dbg) := by
  intro h
  obtain ⟨r, hr, ha, hu⟩ := exBigRecord_fixup
  have hl : exBigRecord.length = 512 := by decide +kernel
  obtain ⟨e, he, hm⟩ := (C71_index_sizes_partial dbg exBigRecord (some 4096) r (by decide +kernel)
    (by omega) hr).1 (by omega) (by omega)
  have hm' := h _ _ _ _ hr he (by omega)
  rw [saysAllocated_index (dbg := dbg)] at hm hm'
  rw [hm, ha, hl] at hm'
  have := pieces_of_display hm' rfl
  simp only [Err.pieces, List.cons.injEq, Piece.arg.injEq, dec_inj] at this
  omega

/-- The hypotheses of `C71_index_sizes_partial` are met. -/
example : ∃ r, (Record.mk exBigRecord (some 4096)).fixup = .ok r ∧
    exBigRecord.take 4 = [0x49, 0x4E, 0x44, 0x58] ∧ 36 ≤ exBigRecord.length ∧
    exBigRecord.length < 24 + field r.data 32 4 := by
  obtain ⟨r, hr, ha, _⟩ := exBigRecord_fixup
  have hl : exBigRecord.length = 512 := by decide +kernel
  exact ⟨r, hr, by decide +kernel, by omega, by omega⟩

/-- A file record of 512 bytes that claims 513 bytes. -/
def exBigFile : Bytes :=
  [0x46, 0x49, 0x4C, 0x45, 48, 0, 2, 0] ++ List.replicate 16 0 ++
    [56, 0, 0, 0, 1, 2, 0, 0] ++ List.replicate 16 0 ++ [7, 0, 0, 0] ++
    List.replicate 458 0 ++ [7, 0]

/-- The hypotheses of `C71_file_sizes` are met. -/
example : ∃ r, (Record.mk exBigFile (some 4096)).fixup = .ok r ∧
    exBigFile.take 4 = [0x46, 0x49, 0x4C, 0x45] ∧ 32 ≤ exBigFile.length ∧
    exBigFile.length < field r.data 28 4 := by
  have h : ((Record.mk exBigFile (some 4096)).fixup.bind
      (fun r => if field r.data 28 4 = 513 then .ok () else .diverge)) = .ok () := by
    decide +kernel
  obtain ⟨r, h1, h2⟩ := Res.bind_eq_ok.1 h
  have hl : exBigFile.length = 512 := by decide +kernel
  refine ⟨r, h1, by decide +kernel, by omega, ?_⟩
  split at h2
  · rename_i hc; omega
  · cases h2

/-- C71: an attribute that does not fit into its record is refused with a message that tells its
stored length and the length that is left. -/
theorem C71_attribute_length (dbg : IoErr → List Char) (f : NFile) (off : Nat) (l : Option AttrList)
    (h1 : 16 ≤ f.recordData.length - off)
    (h2 : f.recordData.length - off < field f.recordData (off + 4) 4) :
    ∃ e, Attr.new f off l = .err e ∧
      Spec.saysLength (Pos.add f.position off) (field f.recordData (off + 4) 4)
        (f.recordData.length - off) (e.display dbg) := by
  refine ⟨_, ?_, (saysLength_iff (dbg := dbg)).2 rfl⟩
  rw [Attr.new_eq, if_neg (by omega), if_neg (by omega), if_pos h2]

/-- C71: an attribute whose length is smaller than a header is said to have a length of 16 bytes in
a record with as many bytes left as its length is, whatever is left. -/
theorem C71_attribute_length_partial (dbg : IoErr → List Char) (f : NFile) (off : Nat)
    (l : Option AttrList) (h1 : 16 ≤ f.recordData.length - off)
    (h2 : field f.recordData (off + 4) 4 < 16) :
    ∃ e, Attr.new f off l = .err e ∧
      Spec.saysLength (Pos.add f.position off) 16 (field f.recordData (off + 4) 4)
        (e.display dbg) := by
  refine ⟨_, ?_, (saysLength_iff (dbg := dbg)).2 rfl⟩
  rw [Attr.new_eq, if_neg (by omega), if_pos h2]

/-- A file record with an attribute of length 0 at its beginning. -/
def exShortAttr (n : Ntfs) : NFile := ⟨n, ⟨List.replicate 64 0, some 4096⟩, 0⟩

/-- C71: the message about the length of an attribute does not tell the stored length. -/
theorem C71_attribute_length_negation (dbg : IoErr → List Char) (n : Ntfs) :
    ¬ ∀ (f : NFile) (off : Nat) (l : Option AttrList) (e : Err),
      Attr.new f off l = .err e → 16 ≤ f.recordData.length - off →
      ∃ y, Spec.saysLength (Pos.add f.position off) (field f.recordData (off + 4) 4) y
        (e.display dbg) := by
  intro h
  have h2 : field (exShortAttr n).recordData (0 + 4) 4 < 16 := by
    show field (List.replicate 64 0) 4 4 < 16
    decide +kernel
  have h0 : field (exShortAttr n).recordData (0 + 4) 4 = 0 := by
    show field (List.replicate 64 0) 4 4 = 0
    decide +kernel
  have h1 : 16 ≤ (exShortAttr n).recordData.length - 0 := by
    show 16 ≤ (List.replicate 64 (0 : UInt8)).length - 0
    decide +kernel
  obtain ⟨e, he, hm⟩ := C71_attribute_length_partial dbg (exShortAttr n) 0 none h1 h2
  obtain ⟨y, hm'⟩ := h _ _ _ _ he h1
  rw [saysLength_iff (dbg := dbg)] at hm hm'
  rw [hm] at hm'
  have := pieces_of_display hm' rfl
  simp only [Err.pieces, List.cons.injEq, Piece.arg.injEq, dec_inj] at this
  omega

/-- C71: an index entry that does not fit into its node is refused with a message that tells its
stored size, and the size that is left if this is less than 64 KiB. -/
theorem C71_entry_size (dbg : IoErr → List Char) (s : Bytes) (p : Pos) (h1 : 16 ≤ s.length)
    (h2 : s.length < field s 8 2) :
    ∃ e, IEntry.new s p = .err e ∧ Spec.saysEntry p (field s 8 2) s.length (e.display dbg) := by
  have hlt : field s 8 2 < U16 := field_lt (n := 2) (by omega)
  refine ⟨.invalidIndexEntrySize p (field s 8 2) s.length, ?_, (saysEntry_iff (dbg := dbg)).2 rfl⟩
  rw [IEntry.new_eq, if_neg (by omega), if_pos h2, Nat.mod_eq_of_lt (by omega)]

/-- C71: a rest of a node that is too short for an entry is said to report a size of 16 bytes. -/
theorem C71_entry_size_partial (dbg : IoErr → List Char) (s : Bytes) (p : Pos)
    (h1 : s.length < 16) :
    ∃ e, IEntry.new s p = .err e ∧ Spec.saysEntry p 16 s.length (e.display dbg) := by
  refine ⟨.invalidIndexEntrySize p 16 s.length, ?_, (saysEntry_iff (dbg := dbg)).2 rfl⟩
  rw [IEntry.new_eq, if_pos h1, Nat.mod_eq_of_lt (by omega)]

/-- C71: the message about the size of an index entry does not tell the size that the entry
reports: here it reports 24 bytes and the message says 16. -/
theorem C71_entry_size_negation (dbg : IoErr → List Char) :
    ¬ ∀ (s : Bytes) (p : Pos) (e : Err), IEntry.new s p = .err e → 10 ≤ s.length →
      ∃ y, Spec.saysEntry p (field s 8 2) y (e.display dbg) := by
  intro h
  obtain ⟨e, he, hm⟩ := C71_entry_size_partial dbg [0, 0, 0, 0, 0, 0, 0, 0, 24, 0, 0, 0] none
    (by decide)
  obtain ⟨y, hm'⟩ := h _ _ _ he (by decide)
  rw [saysEntry_iff (dbg := dbg)] at hm hm'
  rw [hm] at hm'
  have := pieces_of_display hm' rfl
  simp only [Err.pieces, List.cons.injEq, Piece.arg.injEq, dec_inj] at this
  exact absurd this.2.2.2.1 (by decide)

/-- The hypotheses of `C71_entry_size` are met: an entry of 24 bytes of which 16 are there. -/
example : 16 ≤ [0, 0, 0, 0, 0, 0, 0, 0, 24, 0, 0, 0, 0, 0, 0, 0].length ∧
    [0, 0, 0, 0, 0, 0, 0, 0, 24, 0, 0, 0, 0, 0, 0, 0].length <
      field [0, 0, 0, 0, 0, 0, 0, 0, 24, 0, 0, 0, 0, 0, 0, 0] 8 2 := by decide

/-- The hypotheses of `C71_attribute_length` are met: an attribute of 80 bytes of which 64 are
there. -/
example (n : Ntfs) : ∃ f : NFile, f.ntfs = n ∧ 16 ≤ f.recordData.length - 0 ∧
    f.recordData.length - 0 < field f.recordData (0 + 4) 4 :=
  ⟨⟨n, ⟨[128, 0, 0, 0, 80] ++ List.replicate 59 0, some 4096⟩, 0⟩, rfl, by
    show 16 ≤ ([128, 0, 0, 0, 80] ++ List.replicate 59 (0 : UInt8)).length - 0
    decide +kernel, by
    show ([128, 0, 0, 0, 80] ++ List.replicate 59 (0 : UInt8)).length - 0 <
      field ([128, 0, 0, 0, 80] ++ List.replicate 59 0) 4 4
    decide +kernel⟩

end NT
