import Verif.Props.C29_IndexPanics
import Verif.Props.C33_DirectoryFind
import Verif.Props.C47_NameLookup

/-! C48: opening the index of a directory. -/

namespace NT

open Spec

variable {V : View}

theorem NFile.isDirectory_eq {f : NFile} (h : 24 ≤ f.recordData.length) :
    f.isDirectory = .ok (field f.recordData 22 2 / 2 % 2 == 1) := by
  unfold NFile.isDirectory NFile.flags
  rw [readLE_ok (n := 2) (a := 22) (by omega), Res.bind_ok, Res.pure_eq, Res.bind_ok]
  have : field f.recordData 22 2 % 4 / 2 % 2 = field f.recordData 22 2 / 2 % 2 := by omega
  rw [this]
  rfl

/-- **C48**: a file record without the directory flag is refused, whatever its attributes are. -/
theorem C48_not_a_directory (f : NFile) (h : 24 ≤ f.recordData.length)
    (hb : field f.recordData 22 2 / 2 % 2 = 0) (fuel : Nat) (d : Dev) :
    f.directoryIndex fuel d = (.err (.notADirectory f.position), d) := by
  unfold NFile.directoryIndex
  rw [NFile.isDirectory_eq h, hb, StM.bind_of_ok (StM.lift_apply _ _)]
  rfl

/-- What is wrong with the bytes of an index root, if anything. -/
def Spec.rootErr (rv : Bytes) (p : Pos) : Option Err :=
  if rv.length < 32 then some (.invalidStructuredValueSize p .indexRoot 16 rv.length)
  else if rv.length ≤ 16 + field rv 16 4 then
    some (.invalidIndexRootEntriesOffset p (16 + field rv 16 4) rv.length)
  else if rv.length < 16 + field rv 20 4 then
    some (.invalidIndexRootUsedSize p (16 + field rv 20 4) rv.length)
  else none

/-- The first attribute of the type with the name `$I30`, as in C46. -/
abbrev FirstI30 (V : View) (ty : AttrType) (steps : List Step) (r : Res (Option AttrItem))
    (q : Res (Option AttrItem)) : Prop :=
  FirstHit V (AttrHit V ty (some [0x24, 0x49, 0x33, 0x30]))
    (fun f o => NotWanted f.recordData o typeCodes ty.code (some [0x24, 0x49, 0x33, 0x30]) none)
    (AttrBad ty (some [0x24, 0x49, 0x33, 0x30])) steps r q

/-- The position of the value of the attribute at `off` of `file`, as errors report it: see C40. -/
abbrev rootPos (file : NFile) (off : Nat) : Pos := Pos.add (Pos.add file.position off) 0

/-- The index of the root at `off` of `file`. -/
abbrev rootIndex (file : NFile) (off size : Nat) (d : Bytes) (a : Option AttrItem) : Index :=
  ⟨size, ⟨d, 0, d.length, Pos.add (rootPos file off) (16 + field (valueAt file off) 16 4)⟩, rootPos file off, a⟩

/-- The result of opening a directory whose first `$INDEX_ROOT` named `$I30` is the item `i` at `off` of
`file`; `q` is the first `$INDEX_ALLOCATION` named `$I30`. -/
structure RootOutcome (f file : NFile) (off : Nat) (i : AttrItem) (q : Res (Option AttrItem))
    (res : Res Index) : Prop where
  /-- the root must be resident -/
  nonResident : field file.recordData (off + 8) 1 ≠ 0 →
    res = .err (.unexpectedNonResidentAttribute (Pos.add file.position off))
  /-- its value must be an index root -/
  malformed : Placed file off → ∀ x, rootErr (valueAt file off) (rootPos file off) = some x →
    res = .err x
  /-- an index that is not large has no allocation -/
  small : Placed file off → ∀ size d, RootAt (valueAt file off) size false d →
    res = .ok (rootIndex file off size d none)
  /-- a large index has the first allocation -/
  large : Placed file off → ∀ size d, RootAt (valueAt file off) size true d →
    (∀ j, q = .ok (some j) → res = .ok (rootIndex file off size d (some j))) ∧
    (q = .ok none → res = .err (.attributeNotFound f.position .indexAllocation)) ∧
    (∀ x, q = .err x → res = .err x)

/-- A found attribute can be used. -/
theorem AttrHit.item {ty : AttrType} {name : Option (List Nat)} {s : Step} {file : NFile} {off : Nat}
    {i : AttrItem} (h : AttrHit V ty name s file off i) (hat : s.At V file off)
    (hk : ∀ f o f' o', s.At V f o → s.At V f' o' → f = f' ∧ o = o') :
    i.toAttribute = .ok ⟨file, off, i.list⟩ ∧ (Attr.mk file off i.list).Valid ∧
      Attr.ty ⟨file, off, i.list⟩ = .ok ty ∧ (field file.recordData (off + 8) 1 = 0 → i.list = none) := by
  obtain ⟨h1, h2, h3⟩ := h
  obtain ⟨file', g1, g2, g3, g4⟩ := Step.item h1
  obtain ⟨rfl, _⟩ := hk _ _ _ _ g1 hat
  rw [h2] at g2 g3 g4
  exact ⟨g2, g3, (Attr.ty_ok_iff (a := ⟨file', off, i.list⟩) g3.header).2 h3.ty, g4⟩

theorem Attr.rootValue_placed {file : NFile} {off : Nat} (hv : (Attr.mk file off none).Valid)
    (hty : Attr.ty ⟨file, off, none⟩ = .ok .indexRoot) (hp : Placed file off) :
    Attr.RootValue ⟨file, off, none⟩ (valueAt file off) ∧
      Attr.residentValue ⟨file, off, none⟩ = .ok ⟨valueAt file off, Pos.add file.position off, 0⟩ ∧
      Attr.residentIndexRoot ⟨file, off, none⟩ =
        IndexRoot.new (valueAt file off) (Pos.add (Pos.add file.position off) 0) := by
  obtain ⟨p1, p2, p3⟩ := hp
  have hin := hv.inside
  have er : Attr.isResident ⟨file, off, none⟩ = .ok true := by
    rw [Attr.isResident_eq hv.header]
    show Res.ok (field file.recordData (off + 8) 1 == 0) = _
    rw [p1]; rfl
  have ev : Attr.residentValue ⟨file, off, none⟩ =
      .ok ⟨valueAt file off, Pos.add file.position off, 0⟩ := by
    rw [Attr.residentValue_eq (a := ⟨file, off, none⟩) hv.header p1 p2 _ _ _ rfl rfl rfl hin,
      if_neg (by simp only [Attr.recordData]; omega), if_neg (by simp only [Attr.recordData]; omega)]
    rfl
  refine ⟨⟨hty, er, _, ev⟩, ev, ?_⟩
  unfold Attr.residentIndexRoot Attr.ensureTy
  rw [hty, Res.bind_ok, if_neg (by simp), Res.bind_ok, er, Res.bind_ok, if_pos rfl, ev, Res.bind_ok]
  unfold IndexRoot.ofResident
  have hdp : (ResVal.mk (valueAt file off) (Pos.add file.position off) 0).dataPosition =
      Pos.add (Pos.add file.position off) 0 := by
    unfold ResVal.dataPosition
    exact if_pos (Nat.zero_le _)
  rw [hdp]

/-- **C48.** Opening the index of a directory, for every sequence of flattened attributes: it uses the
first `$INDEX_ROOT` named `$I30` and, exactly if that is marked large, the first `$INDEX_ALLOCATION`
named `$I30`; otherwise it fails as the lookups (C46) or the decoding of the root do. -/
theorem C48_directory_index {steps : List Step} {r : Res (Option AttrItem)} (h : Flattened V steps r)
    (h24 : 24 ≤ V.base.recordData.length) (hb : field V.base.recordData 22 2 / 2 % 2 = 1)
    (fuel : Nat) (hfuel : steps.length < fuel) (d : Dev) (hd : d.Ok V.img) :
    ∃ q1 q2 res d', V.base.directoryIndex fuel d = (res, d') ∧ d'.Ok V.img ∧
      FirstI30 V .indexRoot steps r q1 ∧ FirstI30 V .indexAllocation steps r q2 ∧
      (q1 = .ok none → res = .err (.attributeNotFound V.base.position .indexRoot)) ∧
      (∀ x, q1 = .err x → res = .err x) ∧
      ∀ i s file off, q1 = .ok (some i) → s ∈ steps → s.At V file off →
        AttrHit V .indexRoot (some [0x24, 0x49, 0x33, 0x30]) s file off i →
        RootOutcome V.base file off i q2 res := by
  have hi30 : i30 = [0x24, 0x49, 0x33, 0x30] := rfl
  obtain ⟨q1, d1, hd1, f1, a1, a2, a3⟩ := C46_find_attribute h .indexRoot (some i30) fuel hfuel d hd
  obtain ⟨q2, d2, hd2, f2, b1, b2, b3⟩ := C46_find_attribute h .indexAllocation (some i30) fuel hfuel d1 hd1
  have e0 : V.base.directoryIndex fuel d = (do
      let rootItem ← V.base.findAttribute .indexRoot (some i30) fuel
      let a ← StM.lift rootItem.toAttribute
      let root ← StM.lift a.residentIndexRoot
      let allocationItem ← V.base.indexAllocationItem root fuel
      StM.lift (Index.new rootItem allocationItem) : StM Dev Index) d := by
    unfold NFile.directoryIndex
    rw [NFile.isDirectory_eq h24, hb, StM.bind_of_ok (StM.lift_apply _ _)]
    rfl
  rw [e0]
  rcases f1.safe with ⟨o, rfl⟩ | ⟨x, rfl⟩
  case inr =>
    refine ⟨_, q2, _, d1, StM.bind_of_err (a3 x rfl), hd1, f1, f2, ?_, ?_, ?_⟩
    · intro hh; cases hh
    · rintro y ⟨⟩; rfl
    · intro i s file off hh; cases hh
  cases o with
  | none =>
    refine ⟨_, q2, _, d1, StM.bind_of_err (a2 rfl), hd1, f1, f2, ?_, ?_, ?_⟩
    · intro _; rfl
    · intro y hh; cases hh
    · intro i s file off hh; cases hh
  | some i =>
    rw [StM.bind_of_ok (a1 i rfl)]
    obtain ⟨pre, s, post, file, off, es, _, hat, hit⟩ := f1.found i rfl
    have hs : s ∈ steps := by rw [es]; simp
    have huniq : ∀ s ∈ steps, ∀ f o f' o', s.At V f o → s.At V f' o' → f = f' ∧ o = o' :=
      fun s hs f o f' o' g g' => g.unique g' (h.known s hs)
    obtain ⟨c1, c2, c3, c4⟩ := hit.item hat (huniq s hs)
    rw [c1, StM.bind_of_ok (StM.lift_apply _ _)]
    -- whichever step shows this item, it is at the same place
    have same : ∀ s' file' off', s' ∈ steps → s'.At V file' off' →
        AttrHit V .indexRoot (some [0x24, 0x49, 0x33, 0x30]) s' file' off' i → file' = file ∧ off' = off := by
      intro s' file' off' hs' hat' hit'
      obtain ⟨c1', _⟩ := hit'.item hat' (huniq s' hs')
      rw [c1] at c1'
      injection c1' with c1'
      injection c1' with k1 k2
      exact ⟨k1.symm, k2.symm⟩
    by_cases hres : field file.recordData (off + 8) 1 = 0
    case neg =>
      refine ⟨_, q2, .err (.unexpectedNonResidentAttribute (Pos.add file.position off)), d1, ?_, hd1, f1, f2,
        ?_, ?_, ?_⟩
      · refine StM.bind_of_err ?_
        rw [StM.lift_apply]
        unfold Attr.residentIndexRoot Attr.ensureTy
        rw [c3, Res.bind_ok, if_neg (by simp), Res.bind_ok, Attr.isResident_eq c2.header, Res.bind_ok]
        have : (field (Attr.recordData ⟨file, off, i.list⟩) (off + 8) 1 == 0) = false := by
          simpa [Attr.recordData] using hres
        simp only [this]
        rfl
      · intro hh; cases hh
      · intro y hh; cases hh
      · intro i' s' file' off' hh hs' hat' hit'
        injection hh with hh
        injection hh with hh
        subst hh
        obtain ⟨rfl, rfl⟩ := same s' file' off' hs' hat' hit'
        exact ⟨fun _ => rfl, fun hp => absurd hp.1 hres, fun hp => absurd hp.1 hres, fun hp => absurd hp.1 hres⟩
    have hl := c4 hres
    rw [hl] at c1 c2 c3 ⊢
    by_cases hp : Placed file off
    case neg =>
      -- nothing is claimed
      refine ⟨_, q2, _, _, rfl, ?_, f1, f2, ?_, ?_, ?_⟩
      · unfold NFile.indexAllocationItem
        simp only [StM.bind_apply, StM.lift_apply]
        cases Attr.residentIndexRoot ⟨file, off, none⟩ with
        | err x => exact hd1
        | panic x => exact hd1
        | diverge => exact hd1
        | ok root =>
          dsimp only
          cases root.isLarge with
          | err x => exact hd1
          | panic x => exact hd1
          | diverge => exact hd1
          | ok b =>
            dsimp only
            cases b with
            | false => exact hd1
            | true =>
              rw [if_pos rfl]
              simp only [StM.bind_apply]
              rcases f2.safe with ⟨o, rfl⟩ | ⟨x, rfl⟩
              · cases o with
                | none => rw [b2 rfl]; exact hd2
                | some j => rw [b1 j rfl]; exact hd2
              · rw [b3 x rfl]; exact hd2
      · intro hh; cases hh
      · intro y hh; cases hh
      · intro i' s' file' off' hh hs' hat' hit'
        injection hh with hh
        injection hh with hh
        subst hh
        obtain ⟨rfl, rfl⟩ := same s' file' off' hs' hat' hit'
        exact ⟨fun hn => absurd hres hn, fun h => absurd h hp, fun h => absurd h hp, fun h => absurd h hp⟩
    obtain ⟨rv1, rv0, rv2⟩ := Attr.rootValue_placed c2 c3 hp
    rw [rv2]
    cases he : rootErr (valueAt file off) (Pos.add (Pos.add file.position off) 0) with
    | some x =>
      have hnew : IndexRoot.new (valueAt file off) (Pos.add (Pos.add file.position off) 0) = .err x := by
        rw [IndexRoot.new_eq]
        unfold rootErr at he
        split at he
        · rw [if_pos (by assumption)]; injection he with he; rw [he]
        rw [if_neg (by assumption)]
        split at he
        · rw [if_pos (by assumption)]; injection he with he; rw [he]
        rw [if_neg (by assumption)]
        split at he
        · rw [if_pos (by assumption)]; injection he with he; rw [he]
        · cases he
      refine ⟨_, q2, .err x, d1, ?_, hd1, f1, f2, ?_, ?_, ?_⟩
      · exact StM.bind_of_err (by rw [StM.lift_apply, hnew])
      · intro hh; cases hh
      · intro y hh; cases hh
      · intro i' s' file' off' hh hs' hat' hit'
        injection hh with hh
        injection hh with hh
        subst hh
        obtain ⟨rfl, rfl⟩ := same s' file' off' hs' hat' hit'
        have hno : ∀ size large dd, ¬ RootAt (valueAt file' off') size large dd := by
          intro size large dd hr
          have := (IndexRoot.new_rootAt hr (Pos.add (Pos.add file'.position off') 0)).1
          rw [hnew] at this
          cases this
        refine ⟨fun hn => absurd hres hn, fun _ y hy => ?_, fun _ size dd hr => absurd hr (hno _ _ _),
          fun _ size dd hr => absurd hr (hno _ _ _)⟩
        rw [he] at hy
        injection hy with hy
        rw [hy]
    | none =>
      have hnew : IndexRoot.new (valueAt file off) (Pos.add (Pos.add file.position off) 0) =
          .ok ⟨valueAt file off, Pos.add (Pos.add file.position off) 0⟩ := by
        rw [IndexRoot.new_eq]
        unfold rootErr at he
        split at he
        · cases he
        rw [if_neg (by assumption)]
        split at he
        · cases he
        rw [if_neg (by assumption)]
        split at he
        · cases he
        rw [if_neg (by assumption)]
      rw [hnew, StM.bind_of_ok (StM.lift_apply _ _)]
      have h32 : 32 ≤ (valueAt file off).length := by
        unfold rootErr at he
        split at he
        · cases he
        · omega
      have elarge : IndexRoot.isLarge ⟨valueAt file off, Pos.add (Pos.add file.position off) 0⟩ =
          .ok (field (valueAt file off) 28 1 % 2 == 1) := by
        unfold IndexRoot.isLarge
        dsimp only
        rw [idxByte_field (by omega)]
        rfl
      unfold NFile.indexAllocationItem
      rw [elarge]
      by_cases hlarge : field (valueAt file off) 28 1 % 2 = 1
      case neg =>
        have hl0 : (field (valueAt file off) 28 1 % 2 == 1) = false := by simpa using hlarge
        rw [hl0]
        refine ⟨_, q2, Index.new i none, d1, rfl, hd1, f1, f2, ?_, ?_, ?_⟩
        · intro hh; cases hh
        · intro y hh; cases hh
        · intro i' s' file' off' hh hs' hat' hit'
          injection hh with hh
          injection hh with hh
          subst hh
          obtain ⟨rfl, rfl⟩ := same s' file' off' hs' hat' hit'
          refine ⟨fun hn => absurd hres hn, fun _ y hy => ?_, fun _ size dd hr => ?_, fun _ size dd hr => ?_⟩
          · rw [he] at hy; cases hy
          · exact Index.new_stored_at c1 rv1 hr none rfl rv0
          · exact absurd hr.large hlarge
      case pos =>
        have hl1 : (field (valueAt file off) 28 1 % 2 == 1) = true := by simpa using hlarge
        rw [hl1]
        have key : ∀ res dev, ((do
              let i ← V.base.findAttribute .indexAllocation (some i30) fuel
              pure (some i) : StM Dev (Option AttrItem)) >>= fun allocationItem =>
                StM.lift (Index.new i allocationItem)) d1 = (res, dev) →
            (do
              let allocationItem ← (do
                if ← StM.lift (Res.ok true) then do
                  let i ← V.base.findAttribute .indexAllocation (some i30) fuel
                  pure (some i)
                else pure none : StM Dev (Option AttrItem))
              StM.lift (Index.new i allocationItem) : StM Dev Index) d1 = (res, dev) := fun res dev hh => hh
        have fin : ∀ res, (∀ size dd, RootAt (valueAt file off) size true dd →
              (∀ j, q2 = .ok (some j) → res = .ok (rootIndex file off size dd (some j))) ∧
              (q2 = .ok none → res = .err (.attributeNotFound V.base.position .indexAllocation)) ∧
              (∀ x, q2 = .err x → res = .err x)) →
            ∀ i' s' file' off', (Res.ok (some i) : Res (Option AttrItem)) = .ok (some i') → s' ∈ steps →
              s'.At V file' off' → AttrHit V .indexRoot (some [0x24, 0x49, 0x33, 0x30]) s' file' off' i' →
              RootOutcome V.base file' off' i' q2 res := by
          intro res hr i' s' file' off' hh hs' hat' hit'
          injection hh with hh
          injection hh with hh
          subst hh
          obtain ⟨rfl, rfl⟩ := same s' file' off' hs' hat' hit'
          refine ⟨fun hn => absurd hres hn, fun _ y hy => ?_, fun _ size dd hr => ?_, fun _ => hr⟩
          · rw [he] at hy; cases hy
          · have := hr.large
            rw [hlarge] at this
            cases this
        rcases f2.safe with ⟨o, rfl⟩ | ⟨x, rfl⟩
        · cases o with
          | none =>
            refine ⟨_, _, _, d2, key _ _ (StM.bind_of_err (StM.bind_of_err (b2 rfl))), hd2, f1, f2, ?_, ?_,
              fin _ fun size dd hr => ⟨?_, ?_, ?_⟩⟩
            · intro hh; cases hh
            · intro y hh; cases hh
            · intro j hh; cases hh
            · intro _; rfl
            · intro y hh; cases hh
          | some j =>
            refine ⟨_, _, Index.new i (some j), d2, key _ _ ?_, hd2, f1, f2, ?_, ?_,
              fin _ fun size dd hr => ⟨?_, ?_, ?_⟩⟩
            · rw [StM.bind_apply, StM.bind_of_ok (b1 j rfl)]
              rfl
            · intro hh; cases hh
            · intro y hh; cases hh
            · rintro j' ⟨⟩
              obtain ⟨pre2, s2, post2, file2, off2, es2, _, hat2, hit2⟩ := f2.found j rfl
              have hs2 : s2 ∈ steps := by rw [es2]; simp
              obtain ⟨k1, _, k3, _⟩ := hit2.item hat2 (huniq s2 hs2)
              exact Index.new_stored_at c1 rv1 hr (some j) ⟨_, k1, k3⟩ rv0
            · intro hh; cases hh
            · intro y hh; cases hh
        · refine ⟨_, _, _, d2, key _ _ (StM.bind_of_err (StM.bind_of_err (b3 x rfl))), hd2, f1, f2, ?_, ?_,
            fin _ fun size dd hr => ⟨?_, ?_, ?_⟩⟩
          · intro hh; cases hh
          · intro y hh; cases hh
          · intro j hh; cases hh
          · intro hh; cases hh
          · rintro y ⟨⟩; rfl


/-! ### From the file record of a directory to its entries -/

/-- The step `s` is about the first attribute of the type with the name `$I30`, which is at `off` of
`file`. -/
structure FirstAt (V : View) (ty : AttrType) (steps : List Step) (s : Step) (file : NFile) (off : Nat) :
    Prop where
  first : ∃ pre post, steps = pre ++ s :: post ∧ ∀ p ∈ pre, ∃ f o, p.At V f o ∧
    NotWanted f.recordData o typeCodes ty.code (some [0x24, 0x49, 0x33, 0x30]) none
  at_ : s.At V file off
  shown : ∃ i, s.Result V (.ok (some i)) ∧ i.offset = off
  wanted : Wanted file.recordData off ty.code (some [0x24, 0x49, 0x33, 0x30]) none

theorem FirstAt.finds {ty : AttrType} {steps : List Step} {s : Step} {file : NFile} {off : Nat}
    (h : FirstAt V ty steps s file off) {r q : Res (Option AttrItem)} (hq : FirstI30 V ty steps r q) :
    ∃ i, q = .ok (some i) ∧ s ∈ steps ∧ AttrHit V ty (some [0x24, 0x49, 0x33, 0x30]) s file off i := by
  obtain ⟨⟨pre, post, e, hp⟩, h2, ⟨i, h3, h4⟩, h5⟩ := h
  obtain ⟨y, g1, g2⟩ := hq.finds pre s post file off i e hp h2 ⟨h3, h4, h5⟩
  exact ⟨y, g1, by rw [e]; simp, g2⟩

/-- The flattened attributes `steps` of a file hold the directory with the tree `t`: the first
`$INDEX_ROOT` named `$I30` is resident and its value is the root, and if the root is marked large the first
`$INDEX_ALLOCATION` named `$I30` is non-resident and holds the other nodes. -/
inductive DirStored (V : View) (steps : List Step) : Node → Prop
  | small {s : Step} {file : NFile} {off size : Nat} {d : Bytes} {t : Node}
      (hf : FirstAt V .indexRoot steps s file off) (hp : Placed file off)
      (hr : RootAt (valueAt file off) size false d)
      (ht : NodeAt (fun _ _ _ _ => False) d 0 d.length t) : DirStored V steps t
  | large {s s2 : Step} {file file2 : NFile} {off off2 size len : Nat} {d c : Bytes} {t : Node}
      (hf : FirstAt V .indexRoot steps s file off) (hp : Placed file off)
      (hr : RootAt (valueAt file off) size true d)
      (hf2 : FirstAt V .indexAllocation steps s2 file2 off2)
      (ho : ∀ i, s2.Result V (.ok (some i)) →
        Attr.Opens V.img ⟨file2, off2, i.list⟩ c len ∧ Attr.NonResident ⟨file2, off2, i.list⟩)
      (ht : NodeAt (RecordAt c file2.ntfs.clusterSize size) d 0 d.length t) : DirStored V steps t

/-- **C48**: opening a stored directory gives an index with its tree; everything C25, C26 and C33 say
about stored indexes holds for it. -/
theorem C48_open {steps : List Step} {r : Res (Option AttrItem)} (h : Flattened V steps r)
    (h24 : 24 ≤ V.base.recordData.length) (hb : field V.base.recordData 22 2 / 2 % 2 = 1) {t : Node}
    (ht : DirStored V steps t) (fuel : Nat) (hfuel : steps.length < fuel) (d : Dev) (hd : d.Ok V.img) :
    ∃ rootItem allocItem ix d', V.base.directoryIndex fuel d = (.ok ix, d') ∧ d'.Ok V.img ∧
      StoredIndex V.img rootItem allocItem t ∧ Index.new rootItem allocItem = .ok ix := by
  obtain ⟨q1, q2, res, d', e, hd', f1, f2, _, _, h3⟩ := C48_directory_index h h24 hb fuel hfuel d hd
  have huniq : ∀ s ∈ steps, ∀ f o f' o', s.At V f o → s.At V f' o' → f = f' ∧ o = o' :=
    fun s hs f o f' o' g g' => g.unique g' (h.known s hs)
  cases ht with
  | @small s file off size dd _ hf hp hr ht =>
    obtain ⟨i, rfl, hs, hit⟩ := hf.finds f1
    obtain ⟨c1, c2, c3, c4⟩ := hit.item hf.at_ (huniq s hs)
    rw [c4 hp.1] at c1 c2 c3
    obtain ⟨rv1, rv0, rv2⟩ := Attr.rootValue_placed c2 c3 hp
    exact ⟨i, none, _, d', by rw [e, (h3 i s file off rfl hs hf.at_ hit).small hp size dd hr], hd',
      .small c1 rv1 hr ht, Index.new_stored_at c1 rv1 hr none rfl rv0⟩
  | @large s s2 file file2 off off2 size len dd c _ hf hp hr hf2 ho ht =>
    obtain ⟨i, rfl, hs, hit⟩ := hf.finds f1
    obtain ⟨c1, c2, c3, c4⟩ := hit.item hf.at_ (huniq s hs)
    rw [c4 hp.1] at c1 c2 c3
    obtain ⟨rv1, rv0, rv2⟩ := Attr.rootValue_placed c2 c3 hp
    obtain ⟨j, rfl, hs2, hit2⟩ := hf2.finds f2
    obtain ⟨k1, _, k3, _⟩ := hit2.item hf2.at_ (huniq s2 hs2)
    obtain ⟨o1, o2⟩ := ho j hit2.1
    exact ⟨i, some j, _, d',
      by rw [e, ((h3 i s file off rfl hs hf.at_ hit).large hp size dd hr).1 j rfl], hd',
      .large c1 rv1 hr k1 k3 o1 o2 ht, Index.new_stored_at c1 rv1 hr (some j) ⟨_, k1, k3⟩ rv0⟩

/-- **C48 with C25**: listing a stored directory shows its entries in order, each once. -/
theorem C48_list {steps : List Step} {r : Res (Option AttrItem)} (h : Flattened V steps r)
    (h24 : 24 ≤ V.base.recordData.length) (hb : field V.base.recordData 22 2 / 2 % 2 = 1) {t : Node}
    (ht : DirStored V steps t) (fuel : Nat) (hfuel : steps.length < fuel) (d : Dev) (hd : d.Ok V.img) :
    ∃ ix d', V.base.directoryIndex fuel d = (.ok ix, d') ∧ d'.Ok V.img ∧
      ∀ (fuel k : Nat) (d : Dev), t.entries + t.nodes < fuel → d.Ok V.img →
        (IndexEntries.calls ix fuel k (IndexEntries.new ix, d)).length = k ∧
        ShowsThenEnds t.inorder (IndexEntries.calls ix fuel k (IndexEntries.new ix, d)) := by
  obtain ⟨ri, ai, ix, d', e, hd', hst, hix⟩ := C48_open h h24 hb ht fuel hfuel d hd
  obtain ⟨ix', e', h'⟩ := C25_inorder hst
  rw [hix] at e'
  injection e' with e'
  subst e'
  exact ⟨ix, d', e, hd', h'⟩

/-- **C48 with C33**: looking up a name in a stored directory that is sorted. -/
theorem C48_find {steps : List Step} {r : Res (Option AttrItem)} (h : Flattened V steps r)
    (h24 : 24 ≤ V.base.recordData.length) (hb : field V.base.recordData 22 2 / 2 % 2 = 1) {t : Node}
    (ht : DirStored V steps t) (fuel : Nat) (hfuel : steps.length < fuel) (d : Dev) (hd : d.Ok V.img)
    (ntfs : Ntfs) (tab : List Nat) (hn : ntfs.upcaseTable = some tab) (htab : TableOk tab)
    (hs : DirSorted tab t.inorder) :
    ∃ ix d', V.base.directoryIndex fuel d = (.ok ix, d') ∧ d'.Ok V.img ∧
      ∀ (name : List Nat) (fuel : Nat) (d : Dev), Units name → t.entries + t.nodes ≤ fuel → d.Ok V.img →
        ((ix.findName ntfs name fuel d).2).Ok V.img ∧
        ((∃ x e u, (ix.findName ntfs name fuel d).1 = .ok (some x) ∧ x.Is e ∧ e ∈ t.inorder ∧
            Upper tab name u ∧ UpperName tab e u) ∨
          ((ix.findName ntfs name fuel d).1 = .ok none ∧
            ∀ e ∈ t.inorder, ¬ ∃ u, Upper tab name u ∧ UpperName tab e u)) := by
  obtain ⟨ri, ai, ix, d', e, hd', hst, hix⟩ := C48_open h h24 hb ht fuel hfuel d hd
  obtain ⟨ix', e', h'⟩ := C33_find hst ntfs tab hn htab hs
  rw [hix] at e'
  injection e' with e'
  subst e'
  exact ⟨ix, d', e, hd', h'⟩

/-! ### The hypotheses can be met -/

def exDirView (table : Option (List Nat)) : View := ⟨exDirNtfs table, exDirImage, [], exDirFile table⟩

theorem exDir_attrs : AttrAt exDirRecord 56 184 ∧ AttrAt exDirRecord 240 80 :=
  ⟨⟨by decide +kernel, by decide +kernel, by decide +kernel, by decide +kernel⟩,
   ⟨by decide +kernel, by decide +kernel, by decide +kernel, by decide +kernel⟩⟩

theorem exDir_flattened (table : Option (List Nat)) :
    Flattened (exDirView table) [.own 56, .own 240] (.ok none) :=
  .plain (V := exDirView table) [56, 240] 320 (.ok none)
    (by show 32 ≤ exDirRecord.length; decide +kernel)
    (.cons exDir_attrs.1 (.cons exDir_attrs.2 (.nil 320)))
    (by show ∀ o ∈ [56, 240], field exDirRecord o 4 ≠ 0x20; decide +kernel)
    (.inl ⟨fun _ => by show field exDirRecord 320 4 = _; decide +kernel, rfl⟩)

theorem exDir_dirStored (table : Option (List Nat)) :
    DirStored (exDirView table) [.own 56, .own 240] exDirTree := by
  have n1 : NameIs exDirRecord 56 [0x24, 0x49, 0x33, 0x30] := ⟨by decide +kernel, by decide +kernel⟩
  have n2 : NameIs exDirRecord 240 [0x24, 0x49, 0x33, 0x30] := ⟨by decide +kernel, by decide +kernel⟩
  have a1 : Step.At (exDirView table) (.own 56) (exDirFile table) 56 := ⟨rfl, rfl, _, exDir_attrs.1⟩
  have a2 : Step.At (exDirView table) (.own 240) (exDirFile table) 240 := ⟨rfl, rfl, _, exDir_attrs.2⟩
  have ht := exDir_tree
  have e : exDirRoot.length = 120 := by decide +kernel
  rw [← e] at ht
  have hval : valueAt (exDirFile table) 56 = part exDirRecord 88 152 := by
    show valueAt (exDirFile none) 56 = _
    decide +kernel
  refine .large (s := .own 56) (s2 := .own 240) (file := exDirFile table) (file2 := exDirFile table)
    (off := 56) (off2 := 240) (d := exDirRoot) (c := exDirStream) (len := 1024) (size := 512)
    ⟨⟨[], [.own 240], rfl, by simp⟩, a1, ⟨_, ⟨rfl, _, exDir_attrs.1⟩, rfl⟩, ?_⟩ ?_ ?_
    ⟨⟨[.own 56], [], rfl, ?_⟩, a2, ⟨_, ⟨rfl, _, exDir_attrs.2⟩, rfl⟩, ?_⟩ ?_ ht
  · exact ⟨by show field exDirRecord 56 4 = _; decide +kernel, by simp, by rintro s ⟨⟩; exact n1⟩
  · show field exDirRecord 64 1 = 0 ∧ 78 ≤ exDirRecord.length ∧
      field exDirRecord 76 2 + field exDirRecord 72 4 ≤ field exDirRecord 60 4
    decide +kernel
  · rw [hval]; exact exDir_rootAt
  · intro p hp
    simp only [List.mem_cons, List.not_mem_nil, or_false] at hp
    subst hp
    exact ⟨_, _, a1, by show field exDirRecord 56 4 ∈ _; decide +kernel,
      .inl (by show field exDirRecord 56 4 ≠ _; decide +kernel)⟩
  · exact ⟨by show field exDirRecord 240 4 = _; decide +kernel, by simp, by rintro s ⟨⟩; exact n2⟩
  · rintro i ⟨hi, _⟩
    injection hi with hi
    injection hi with hi
    subst hi
    exact ⟨exDir_opens table, (exDir_allocated table).nonRes⟩

/-- Opening the example directory. -/
example (d : Dev) (hd : d.Ok exDirImage) : ∃ ix d', (exDirFile none).directoryIndex 3 d = (.ok ix, d') ∧
    ShowsThenEnds [exEntA, exEntB, exEntC, exEntD] (IndexEntries.calls ix 20 7 (IndexEntries.new ix, d')) := by
  obtain ⟨ix, d', e, hd', h⟩ := C48_list (exDir_flattened none)
    (by show 24 ≤ exDirRecord.length; decide +kernel) (by show field exDirRecord 22 2 / 2 % 2 = 1; decide +kernel)
    (exDir_dirStored none) 3 (by decide) d hd
  exact ⟨ix, d', e, (h 20 7 d' (by decide) hd').2⟩

/-- The same record without the directory flag. -/
example (d : Dev) :
    (NFile.mk (exDirNtfs none) ⟨exDirRecord.set 22 1, some 512⟩ 30).directoryIndex 3 d =
      (.err (.notADirectory (some 512)), d) :=
  C48_not_a_directory _ (by show 24 ≤ (exDirRecord.set 22 1).length; decide +kernel)
    (by show field (exDirRecord.set 22 1) 22 2 / 2 % 2 = 0; decide +kernel) 3 d

example (d : Dev) (hd : d.Ok exDirImage) := C48_directory_index (exDir_flattened none)
  (by show 24 ≤ exDirRecord.length; decide +kernel) (by show field exDirRecord 22 2 / 2 % 2 = 1; decide +kernel) 3 (by decide) d hd
/-- Searching in it, see also C33. -/
example (d : Dev) (hd : d.Ok exDirImage) := C48_find (exDir_flattened (some exTable))
  (by show 24 ≤ exDirRecord.length; decide +kernel) (by show field exDirRecord 22 2 / 2 % 2 = 1; decide +kernel)
  (exDir_dirStored (some exTable)) 3 (by decide) d hd (exDirNtfs (some exTable)) exTable rfl exTable_ok exDir_sorted

end NT
