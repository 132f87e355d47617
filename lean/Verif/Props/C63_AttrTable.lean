import Verif.Props.C55_Volume
import Verif.Model.ShellAttr
import Verif.Props.C62_FileInfo

/-! C63: what `attr` and `attr_runs` print about a file. -/

namespace NT

open Spec

variable {V : View}

/-- The calls of `next` of an iterator over data runs give the runs `xs`, and then the end or the error. -/
inductive Delivers : DataRuns → List DataRun → Option Err → Prop
  | done (r r' : DataRuns) : r.next = (none, r') → Delivers r [] none
  | bad (r r' : DataRuns) (e : Err) : r.next = (some (.err e), r') → Delivers r [] (some e)
  | step (r r' : DataRuns) (x : DataRun) (xs : List DataRun) (o : Option Err) :
      r.next = (some (.ok x), r') → Delivers r' xs o → Delivers r (x :: xs) o

/-- The lines about the runs `xs`, numbered from `i`. -/
def runLines (nested : Bool) : Nat → List DataRun → List AttrLine
  | _, [] => []
  | i, x :: xs => .run nested i x.position x.allocatedSize :: runLines nested (i + 1) xs

/-- The mapping pairs of the non-resident attribute at `off`. -/
def runsAt (file : NFile) (off : Nat) : DataRuns :=
  DataRuns.new file.ntfs.clusterSize
    ((file.recordData.drop (off + field file.recordData (off + 32) 2)).take
      (field file.recordData (off + 4) 4 - field file.recordData (off + 32) 2))
    (Pos.add file.position (off + field file.recordData (off + 32) 2))

/-- The line about the attribute at `off`, if it has type `t` and name `nm`. -/
def lineAt (file : NFile) (off record : Nat) (nested : Bool) (t : AttrType) (nm : List Nat) : AttrLine :=
  .attribute nested (field file.recordData (off + 14) 2) t (decide (field file.recordData (off + 8) 1 = 0)) record
    (Pos.add file.position off) (SizeAt file off) (lossy nm)

/-- What is printed about the attribute at `off`, and the error that ends the listing there. -/
inductive Printed (withRuns : Bool) (file : NFile) (off record : Nat) (nested : Bool) :
    List AttrLine → Option Err → Prop
  | badType : field file.recordData off 4 ∉ typeCodes → Printed withRuns file off record nested []
      (some (.unsupportedAttributeType (Pos.add file.position off) (field file.recordData off 4)))
  | badName (x : Err) : field file.recordData off 4 ∈ typeCodes → NameBad file off x →
      Printed withRuns file off record nested [] (some x)
  | short (t : AttrType) (nm : List Nat) : withRuns = false → field file.recordData off 4 = t.code →
      NameIs file.recordData off nm →
      Printed withRuns file off record nested [lineAt file off record nested t nm] none
  | resident (t : AttrType) (nm : List Nat) : withRuns = true → field file.recordData off 4 = t.code →
      NameIs file.recordData off nm → field file.recordData (off + 8) 1 = 0 →
      field file.recordData (off + 20) 2 + field file.recordData (off + 16) 4 ≤
        field file.recordData (off + 4) 4 →
      Printed withRuns file off record nested [lineAt file off record nested t nm] none
  | residentBad (t : AttrType) (nm : List Nat) : withRuns = true → field file.recordData off 4 = t.code →
      NameIs file.recordData off nm → field file.recordData (off + 8) 1 = 0 →
      field file.recordData (off + 4) 4 < field file.recordData (off + 20) 2 + field file.recordData (off + 16) 4 →
      Printed withRuns file off record nested [lineAt file off record nested t nm]
        (some (if field file.recordData (off + 4) 4 < field file.recordData (off + 20) 2 then
          .invalidResidentAttributeValueOffset (Pos.add file.position off) (field file.recordData (off + 20) 2)
            (field file.recordData (off + 4) 4)
        else .invalidResidentAttributeValueLength (Pos.add file.position off) (field file.recordData (off + 16) 4)
          (field file.recordData (off + 20) 2) (field file.recordData (off + 4) 4)))
  | runs (t : AttrType) (nm : List Nat) (xs : List DataRun) (o : Option Err) : withRuns = true →
      field file.recordData off 4 = t.code → NameIs file.recordData off nm →
      field file.recordData (off + 8) 1 ≠ 0 →
      field file.recordData (off + 32) 2 ≤ field file.recordData (off + 4) 4 → Delivers (runsAt file off) xs o →
      Printed withRuns file off record nested (lineAt file off record nested t nm :: runLines nested 0 xs) o
  | runsBad (t : AttrType) (nm : List Nat) : withRuns = true → field file.recordData off 4 = t.code →
      NameIs file.recordData off nm → field file.recordData (off + 8) 1 ≠ 0 →
      field file.recordData (off + 4) 4 < field file.recordData (off + 32) 2 →
      Printed withRuns file off record nested [lineAt file off record nested t nm]
        (some (.invalidNonResidentValueDataRange (Pos.add file.position (off + field file.recordData (off + 32) 2))
          (off + field file.recordData (off + 32) 2) (off + field file.recordData (off + 4) 4)
          file.recordData.length))

/-- The record does not end inside the header of the attribute at `off` (else the command panics). -/
def Complete (withRuns : Bool) (file : NFile) (off : Nat) : Prop :=
  off + (if field file.recordData (off + 8) 1 = 0 then (if withRuns then 22 else 20) else 56) ≤
    file.recordData.length

/-- What is printed about the entries `es` of an attribute list: nothing for entries of the base record. -/
inductive Entries (withRuns : Bool) (V : View) : List LEntry → List AttrLine → Option Err → Prop
  | nil : Entries withRuns V [] [] none
  | own (e : LEntry) (es : List LEntry) (l : List AttrLine) (o : Option Err) : e.record = V.base.number →
      Entries withRuns V es l o → Entries withRuns V (e :: es) l o
  | fails (e : LEntry) (es : List LEntry) (x : Err) : e.record ≠ V.base.number →
      LoadFails V.ntfs V.img V.mftEs e x → Entries withRuns V (e :: es) [] (some x)
  | bad (e : LEntry) (es : List LEntry) (file : NFile) (off : Nat) (l : List AttrLine) (x : Err) :
      e.record ≠ V.base.number → Loads V.ntfs V.img V.mftEs e file off →
      Printed withRuns file off e.record true l (some x) → Entries withRuns V (e :: es) l (some x)
  | shown (e : LEntry) (es : List LEntry) (file : NFile) (off : Nat) (l l' : List AttrLine) (o : Option Err) :
      e.record ≠ V.base.number → Loads V.ntfs V.img V.mftEs e file off →
      Printed withRuns file off e.record true l none → Entries withRuns V es l' o →
      Entries withRuns V (e :: es) (l ++ l') o

/-- The attribute at `off` is an attribute list whose value does not lie inside the attribute; `x` says how. -/
def Spec.ListLost (file : NFile) (off : Nat) (x : Err) : Prop :=
  field file.recordData off 4 = 0x20 ∧ field file.recordData (off + 8) 1 = 0 ∧ off + 22 ≤ file.recordData.length ∧
  (field file.recordData (off + 4) 4 < field file.recordData (off + 20) 2 ∧
    x = .invalidResidentAttributeValueOffset (Pos.add file.position off) (field file.recordData (off + 20) 2)
      (field file.recordData (off + 4) 4) ∨
   field file.recordData (off + 20) 2 ≤ field file.recordData (off + 4) 4 ∧
    field file.recordData (off + 4) 4 < field file.recordData (off + 20) 2 + field file.recordData (off + 16) 4 ∧
    x = .invalidResidentAttributeValueLength (Pos.add file.position off) (field file.recordData (off + 16) 4)
      (field file.recordData (off + 20) 2) (field file.recordData (off + 4) 4))

/-- What is printed about the attributes at `offs` of the base record, which end at `fin`, with the
attributes that an attribute list among them leads to. -/
inductive Table (withRuns : Bool) (V : View) (fin : Nat) : List Nat → List AttrLine → Res Unit → Prop
  | done : EndsAt V.base.recordData fin → Table withRuns V fin [] [] (.ok ())
  | broken : ¬ EndsAt V.base.recordData fin → Table withRuns V fin [] []
      (.err (lengthError (Pos.add V.base.position fin) V.base.recordData fin))
  | bad (off : Nat) (offs : List Nat) (l : List AttrLine) (x : Err) :
      Printed withRuns V.base off V.base.number false l (some x) → Table withRuns V fin (off :: offs) l (.err x)
  | shown (off : Nat) (offs : List Nat) (l l' : List AttrLine) (q : Res Unit) :
      field V.base.recordData off 4 ≠ 0x20 → Printed withRuns V.base off V.base.number false l none →
      Table withRuns V fin offs l' q → Table withRuns V fin (off :: offs) (l ++ l') q
  | listLost (off : Nat) (offs : List Nat) (l : List AttrLine) (x : Err) : ListLost V.base off x →
      Printed withRuns V.base off V.base.number false l none → Table withRuns V fin (off :: offs) l (.err x)
  | listBad (off len : Nat) (offs : List Nat) (es : List LEntry) (l l' : List AttrLine) (x : Err) :
      AttrAt V.base.recordData off len → ListStored V.ntfs V.img V.base off len es →
      Printed withRuns V.base off V.base.number false l none → Entries withRuns V es l' (some x) →
      Table withRuns V fin (off :: offs) (l ++ l') (.err x)
  | list (off len : Nat) (offs : List Nat) (es : List LEntry) (l l' l'' : List AttrLine) (q : Res Unit) :
      AttrAt V.base.recordData off len → ListStored V.ntfs V.img V.base off len es →
      Printed withRuns V.base off V.base.number false l none → Entries withRuns V es l' none →
      Table withRuns V fin offs l'' q → Table withRuns V fin (off :: offs) (l ++ (l' ++ l'')) q

/-- The entry can be followed without a panic. -/
def Follows (withRuns : Bool) (V : View) (e : LEntry) : Prop :=
  e.record = V.base.number ∨ (∃ t : AttrType, e.ty = t.code) ∧
    ((∃ x, LoadFails V.ntfs V.img V.mftEs e x) ∨
      ∃ file off, Loads V.ntfs V.img V.mftEs e file off ∧ Complete withRuns file off)

/-- How a command that ends with the error `o` (or none) ends. -/
def endsWith : Option Err → Res Unit
  | none => .ok ()
  | some x => .err x

/-- A fresh data run starts where it says. -/
theorem DataRun.dataPosition_fresh {r r' : DataRuns} {x : DataRun} (hp : r.state.previousLcn < U64)
    (h : r.next = (some (.ok x), r')) : x.dataPosition = x.position ∧ r'.state.previousLcn < U64 := by
  rcases r.next_cases hp with ⟨_, g, _⟩ | ⟨_, g⟩ | ⟨_, g, _⟩ | ⟨y, o', lcn, g, _, _, g3, _, g5, g6, g7, g8⟩
  · rw [g] at h; cases h
  · rw [g] at h; cases h
  · rw [g] at h; cases h
  rw [g] at h
  injection h with h1 h2
  injection h1 with h1
  injection h1 with h1
  subst h1 h2
  refine ⟨?_, g3⟩
  unfold DataRun.dataPosition
  rw [g5, if_pos (Nat.zero_le _)]
  cases hq : y.position with
  | none => rfl
  | some p =>
    obtain ⟨k1, k2⟩ := g8 p hq
    unfold Pos.add Pos.new
    dsimp only
    rw [Nat.add_zero, Nat.mod_eq_of_lt k1, if_neg (by omega)]

theorem Delivers.attrRuns {r : DataRuns} {xs : List DataRun} {o : Option Err} (h : Delivers r xs o)
    (hp : r.state.previousLcn < U64) (nested : Bool)
    (fuel : Nat) (hf : xs.length < fuel) (i : Nat) :
    attrRuns nested fuel i r = (endsWith o, runLines nested i xs) := by
  induction h generalizing fuel i with
  | done r r' h =>
    obtain ⟨n, rfl⟩ : ∃ k, fuel = k + 1 := ⟨fuel - 1, by simp at hf; omega⟩
    rw [NT.attrRuns, h]; rfl
  | bad r r' e h =>
    obtain ⟨n, rfl⟩ : ∃ k, fuel = k + 1 := ⟨fuel - 1, by simp at hf; omega⟩
    rw [NT.attrRuns, h]; rfl
  | step r r' x xs o h ht ih =>
    obtain ⟨n, rfl⟩ : ∃ k, fuel = k + 1 := ⟨fuel - 1, by simp at hf; omega⟩
    obtain ⟨k1, k2⟩ := DataRun.dataPosition_fresh hp h
    rw [NT.attrRuns, h]
    dsimp only
    rw [ih k2 n (by simp at hf; omega) (i + 1), k1]
    rfl

/-- Every iterator over data runs comes to an end. -/
theorem Delivers.exists (r : DataRuns) (hp : r.state.previousLcn < U64) : ∃ xs o, Delivers r xs o := by
  suffices h : ∀ (m : Nat) (r : DataRuns), r.state.previousLcn < U64 → r.data.length - r.state.offset ≤ m →
      ∃ xs o, Delivers r xs o from h _ r hp (Nat.le_refl _)
  intro m
  induction m with
  | zero =>
    intro r hp hm
    rcases r.next_cases hp with ⟨r', h', _⟩ | ⟨e, h'⟩ | ⟨e, h', _⟩ | ⟨_, _, _, h', h2, h3, _⟩
    · exact ⟨_, _, .done _ _ h'⟩
    · exact ⟨_, _, .bad _ _ _ h'⟩
    · exact ⟨_, _, .bad _ _ _ h'⟩
    · omega
  | succ m ih =>
    intro r hp hm
    rcases r.next_cases hp with ⟨r', h', _⟩ | ⟨e, h'⟩ | ⟨e, h', _⟩ | ⟨x, _, _, h', h2, h3, h4, _⟩
    · exact ⟨_, _, .done _ _ h'⟩
    · exact ⟨_, _, .bad _ _ _ h'⟩
    · exact ⟨_, _, .bad _ _ _ h'⟩
    · obtain ⟨xs, o, g⟩ := ih r.next.2 (by rw [h']; exact h4) (by rw [h']; dsimp only; omega)
      rw [h'] at g
      exact ⟨_, _, .step _ _ _ _ _ h' g⟩

theorem Delivers.unique {r : DataRuns} {xs xs' : List DataRun} {o o' : Option Err} (h : Delivers r xs o)
    (h' : Delivers r xs' o') : xs = xs' ∧ o = o' := by
  induction h generalizing xs' o' with
  | done r r' h =>
    cases h' with
    | done _ _ g => exact ⟨rfl, rfl⟩
    | bad _ _ _ g => rw [h] at g; cases g
    | step _ _ _ _ _ g => rw [h] at g; cases g
  | bad r r' e h =>
    cases h' with
    | done _ _ g => rw [h] at g; cases g
    | bad _ _ _ g => rw [h] at g; cases g; exact ⟨rfl, rfl⟩
    | step _ _ _ _ _ g => rw [h] at g; cases g
  | step r r' x xs o h ht ih =>
    cases h' with
    | done _ _ g => rw [h] at g; cases g
    | bad _ _ _ g => rw [h] at g; cases g
    | step _ _ _ _ _ g gt =>
      rw [h] at g; cases g
      obtain ⟨rfl, rfl⟩ := ih gt
      exact ⟨rfl, rfl⟩

/-- Opening a non-resident value reads the first run and keeps the mapping pairs. -/
theorem NonRes.new_delivers {cs : Nat} {data : Bytes} {p : Pos} {size : Nat} {xs : List DataRun} {o : Option Err}
    (h : Delivers (DataRuns.new cs data p) xs o) :
    (∃ v, NonRes.new cs data p size = .ok v ∧ v.dataRuns = DataRuns.new cs data p) ∨
    ∃ e, xs = [] ∧ o = some e ∧ NonRes.new cs data p size = .err e := by
  unfold NonRes.new NonRes.nextDataRun
  dsimp only
  cases h with
  | done _ _ h => left; rw [h]; exact ⟨_, rfl, rfl⟩
  | bad _ _ e h => right; rw [h]; exact ⟨e, rfl, rfl, rfl⟩
  | step _ _ _ _ _ h ht => left; rw [h]; exact ⟨_, rfl, rfl⟩

/-- One attribute. -/
theorem attrPrint_spec (withRuns : Bool) {file : NFile} {off : Nat} (hv : (Attr.mk file off none).Valid)
    (hc : Complete withRuns file off) (record : Nat) (nested : Bool) :
    ∃ l o, Printed withRuns file off record nested l o ∧ ∃ n0, ∀ fuel ≥ n0, ∀ d : Dev,
      attrPrint withRuns ⟨file, off, none⟩ record nested fuel d = (endsWith o, l, d) := by
  have hnew : Attr.new file off none = .ok ⟨file, off, none⟩ := Attr.new_ok_iff.2 ⟨rfl, hv⟩
  have hin := hv.inside
  simp only [Attr.recordData] at hin
  by_cases hty : field file.recordData off 4 ∈ typeCodes
  case neg =>
    refine ⟨_, _, .badType hty, 0, fun fuel _ d => ?_⟩
    unfold attrPrint Attr.line
    rw [Attr.inst_eq hv.header, Res.bind_ok, Attr.ty_bad hv.header hty]
    rfl
  obtain ⟨t, htc⟩ := (typeCodes_iff _).1 hty
  have ety : Attr.ty ⟨file, off, none⟩ = .ok t := (Attr.ty_ok_iff (a := ⟨file, off, none⟩) hv.header).2 htc
  have hlen : Attr.valueLength ⟨file, off, none⟩ = .ok (SizeAt file off) := by
    unfold Complete at hc
    rw [C21_value_length file off none _ hnew]
    unfold SizeAt
    by_cases hr : field file.recordData (off + 8) 1 = 0
    · rw [if_pos hr] at hc ⊢
      rw [if_pos hr, if_pos (by split at hc <;> omega)]
    · rw [if_neg hr] at hc ⊢
      rw [if_neg hr, if_pos hc]
  rcases Attr.name_cases hv with ⟨b, nm, e1, e2, e3, e4⟩ | ⟨x, e1, e2⟩
  case inr =>
    refine ⟨_, _, .badName x hty e2, 0, fun fuel _ d => ?_⟩
    unfold attrPrint Attr.line
    rw [Attr.inst_eq hv.header, Res.bind_ok, ety, Res.bind_ok, Attr.isResident_eq hv.header, Res.bind_ok, hlen,
      Res.bind_ok, e1]
    rfl
  have hline : Attr.line ⟨file, off, none⟩ record nested = .ok (lineAt file off record nested t nm) := by
    unfold Attr.line
    rw [Attr.inst_eq hv.header, Res.bind_ok, ety, Res.bind_ok, Attr.isResident_eq hv.header, Res.bind_ok, hlen,
      Res.bind_ok, e1, Res.bind_ok, e2]
    rfl
  cases withRuns with
  | false =>
    refine ⟨_, _, .short t nm rfl htc e3, 0, fun fuel _ d => ?_⟩
    unfold attrPrint
    rw [hline]
    rfl
  | true =>
  unfold Complete at hc
  by_cases hr : field file.recordData (off + 8) 1 = 0
  · rw [if_pos hr, if_pos rfl] at hc
    have ev := C20_resident_value_exact file off none ⟨file, off, none⟩ hnew hr hc _ _ _ rfl rfl rfl
    by_cases hb : field file.recordData (off + 4) 4 <
        field file.recordData (off + 20) 2 + field file.recordData (off + 16) 4
    · refine ⟨_, _, .residentBad t nm rfl htc e3 hr hb, 0, fun fuel _ d => ?_⟩
      rw [if_pos hb] at ev
      unfold attrPrint
      rw [hline]
      dsimp only
      rw [if_pos rfl]
      unfold Attr.value
      dsimp only
      split at ev
      · rename_i hlt
        rw [if_pos hlt, StM.bind_of_err (s' := d) (by rw [StM.lift_apply, ev])]
        rfl
      · rename_i hlt
        rw [if_neg hlt, StM.bind_of_err (s' := d) (by rw [StM.lift_apply, ev])]
        rfl
    · refine ⟨_, _, .resident t nm rfl htc e3 hr (by omega), 0, fun fuel _ d => ?_⟩
      rw [if_neg (by omega), if_neg (by omega)] at ev
      unfold attrPrint
      rw [hline]
      dsimp only
      rw [if_pos rfl]
      unfold Attr.value
      dsimp only
      rw [StM.bind_of_ok (s' := d) (by rw [StM.lift_apply, ev])]
      rfl
  · rw [if_neg hr] at hc
    have en := Attr.nonResidentValue_eq hv.header hr hc _ _ rfl rfl hv.inside
    have ev : Attr.simpleValue ⟨file, off, none⟩ =
        (Attr.nonResidentValue ⟨file, off, none⟩).bind (fun v => .ok (.nonRes v)) := by
      unfold Attr.simpleValue
      rw [Attr.isResident_eq hv.header, Res.bind_ok]
      simp only [Attr.recordData]
      rw [if_neg (by simpa using hr)]
      rfl
    rw [en] at ev
    simp only [Attr.recordData] at ev
    by_cases hb : field file.recordData (off + 4) 4 < field file.recordData (off + 32) 2
    · refine ⟨_, _, .runsBad t nm rfl htc e3 hr hb, 0, fun fuel _ d => ?_⟩
      rw [if_pos hb] at ev
      unfold attrPrint
      rw [hline]
      dsimp only
      rw [if_pos rfl]
      unfold Attr.value
      dsimp only
      rw [StM.bind_of_err (s' := d) (by rw [StM.lift_apply, ev]; rfl)]
      rfl
    · rw [if_neg hb] at ev
      obtain ⟨xs, o, hx⟩ := Delivers.exists (runsAt file off) (by show 0 < U64; decide)
      refine ⟨_, _, .runs t nm xs o rfl htc e3 hr (by omega) hx, xs.length + 1, fun fuel hf d => ?_⟩
      unfold attrPrint
      rw [hline]
      dsimp only
      rw [if_pos rfl]
      unfold Attr.value
      dsimp only
      rcases NonRes.new_delivers (size := field file.recordData (off + 48) 8) hx with ⟨v, g1, g2⟩ | ⟨e, rfl, rfl, g1⟩
      · rw [g1] at ev
        rw [StM.bind_of_ok (s' := d) (by rw [StM.lift_apply, ev]; rfl)]
        have := hx.attrRuns (by show 0 < U64; decide) nested fuel (by omega) 0
        unfold runsAt at this
        show ((attrRuns nested fuel 0 v.dataRuns).1, _ :: (attrRuns nested fuel 0 v.dataRuns).2, d) = _
        rw [g2, this]
      · rw [g1] at ev
        rw [StM.bind_of_err (s' := d) (by rw [StM.lift_apply, ev]; rfl)]
        rfl

theorem Spec.AttrAt.plain {file : NFile} {off len : Nat} (h : AttrAt file.recordData off len) :
    (Attr.mk file off none).Valid := by
  have h1 := h.length
  have h2 := h.header
  have h3 := h.inside
  exact ⟨by unfold Attr.HeaderIn; simp only [Attr.recordData]; omega,
    by simp only [Attr.recordData]; omega, by simp only [Attr.recordData]; omega⟩

section
variable {ntfs : Ntfs} {img : Bytes} {mft : NFile} {mftEs : List Extent} {mpre : List Nat} {moff mlen mstart : Nat}

/-- Following an entry that leads to an attribute. -/
theorem ListEntry.follow_loads (hm : MftStored ntfs img mft mftEs mpre moff mlen mstart) (e : ListEntry) (x : LEntry)
    (hx : e.view = x) (t : AttrType) (ht : x.ty = t.code) (file : NFile) (off : Nat)
    (h : Loads ntfs img mftEs x file off) (d : Dev) (hd : d.Ok img) :
    ∃ d', d'.Ok img ∧ (do
      let f ← e.toFile ntfs
      StM.lift (e.toAttribute f) : StM Dev Attr) d = (.ok ⟨file, off, none⟩, d') := by
  obtain ⟨hlt, ⟨a, ha1, ha2, ha3⟩, ⟨pre, len, hc, hat, hp⟩, hty, hinst⟩ := h
  obtain ⟨_, r, _, hfr, h32, _⟩ := (NFile.ofBytes_ok_iff _ _ _ _ _).1 ha3
  have hfn : file.number = x.record := by rw [hfr]
  have hl32 : 32 ≤ file.recordData.length := by rw [hfr]; exact h32
  rw [ht] at hp hty
  have hfind : file.findResidentAttribute t none (some x.inst) = .ok ⟨file, off, none⟩ :=
    (C22_first_match file hl32 t none (some x.inst) _).2 ⟨pre, off, hc, ⟨len, hat⟩, rfl,
      ⟨hty, by intro i hi; cases hi; exact hinst, by simp⟩, hp⟩
  obtain ⟨d', hf, hi', hd'⟩ := Ntfs.file_eq ntfs img mft mftEs mpre moff mlen mstart hm d hd.2 hd.1
    x.record
  rw [if_neg (by omega), ha1] at hf
  dsimp only at hf
  rw [if_pos ha2, ha3] at hf
  refine ⟨d', ⟨hi', hd'⟩, ?_⟩
  unfold ListEntry.toFile ListEntry.toAttribute
  rw [ListEntry.record_view hx, StM.bind_of_ok hf, StM.lift_apply, hfn, if_pos rfl, ListEntry.ty_view hx ht,
    Res.bind_ok, ListEntry.inst_view hx, hfind]

/-- Following an entry that leads to an error. -/
theorem ListEntry.follow_fails (hm : MftStored ntfs img mft mftEs mpre moff mlen mstart) (e : ListEntry) (x : LEntry)
    (hx : e.view = x) (t : AttrType) (ht : x.ty = t.code) (err : Err)
    (h : LoadFails ntfs img mftEs x err) (d : Dev) (hd : d.Ok img) :
    ∃ d', d'.Ok img ∧ (do
      let f ← e.toFile ntfs
      StM.lift (e.toAttribute f) : StM Dev Attr) d = (.err err, d') := by
  obtain ⟨d', hf, hi', hd'⟩ := Ntfs.file_eq ntfs img mft mftEs mpre moff mlen mstart hm d hd.2 hd.1
    x.record
  refine ⟨d', ⟨hi', hd'⟩, ?_⟩
  unfold ListEntry.toFile
  rw [ListEntry.record_view hx]
  cases h with
  | tooBig h1 =>
    rw [if_pos h1] at hf
    rw [StM.bind_of_err hf]
  | outside h1 h2 =>
    rw [if_neg (by omega), h2] at hf
    rw [StM.bind_of_err hf]
  | image a h1 h2 h3 =>
    rw [if_neg (by omega), h2] at hf
    dsimp only at hf
    rw [if_neg (by omega)] at hf
    rw [StM.bind_of_err hf]
  | record a _ h1 h2 h3 h4 =>
    rw [if_neg (by omega), h2] at hf
    dsimp only at hf
    rw [if_pos h3, h4] at hf
    rw [StM.bind_of_err hf]
  | noAttribute a file t' offs fin h1 h2 h3 h4 h5 h6 h7 h8 =>
    rw [if_neg (by omega), h2] at hf
    dsimp only at hf
    rw [if_pos h3, h4] at hf
    obtain ⟨_, r, _, hfr, h32, _⟩ := (NFile.ofBytes_ok_iff _ _ _ _ _).1 h4
    have hfn : file.number = x.record := by rw [hfr]
    have hl32 : 32 ≤ file.recordData.length := by rw [hfr]; exact h32
    have htt : t' = t := AttrType.code_inj (by rw [← h5, ht])
    subst htt
    rw [ht] at h8
    have hnf := (C22_not_found_iff file hl32 t' none (some x.inst) file.position t').2
      ⟨rfl, rfl, offs, fin, h6, h7, h8⟩
    rw [StM.bind_of_ok hf]
    unfold ListEntry.toAttribute
    rw [StM.lift_apply, ListEntry.record_view hx, hfn, if_pos rfl, ListEntry.ty_view hx ht,
      Res.bind_ok, ListEntry.inst_view hx, hnf]

end

/-- The entries of an attribute list. -/
theorem attrEntries_spec (withRuns : Bool) {mft : NFile} {mpre : List Nat} {moff mlen mstart : Nat}
    (hm : MftStored V.ntfs V.img mft V.mftEs mpre moff mlen mstart) (es : List LEntry)
    (hes : ∀ e ∈ es, Follows withRuns V e) :
    ∃ l o, Entries withRuns V es l o ∧ ∃ n0, ∀ fuel ≥ n0, ∀ n > es.length, ∀ (out : List AttrLine) (al : AttrList)
      (b : Bytes), al.Holds V.img b → ListEncodes es b → ∀ d : Dev, d.Ok V.img →
      ∃ d', attrEntries withRuns V.ntfs V.base fuel n out (al, d) = (endsWith o, out ++ l, d') ∧ d'.Ok V.img := by
  induction es with
  | nil =>
    refine ⟨_, _, .nil, 0, fun fuel _ n hn out al b hh he d hd => ?_⟩
    obtain ⟨n, rfl⟩ : ∃ k, n = k + 1 := ⟨n - 1, by simp at hn; omega⟩
    cases he
    obtain ⟨d', h1, h2, h3, _⟩ := AttrList.next_holds V.img al [] hh d hd.2 hd.1
    refine ⟨d', ?_, h2, h1⟩
    rw [attrEntries, h3 rfl, List.append_nil]
    rfl
  | cons e es ih =>
    obtain ⟨l', o, i1, n1, i2⟩ := ih (fun e he => hes e (by simp [he]))
    by_cases hr : e.record = V.base.number
    · refine ⟨l', o, .own e es l' o hr i1, n1, fun fuel hf n hn out al b hh he d hd => ?_⟩
      obtain ⟨n, rfl⟩ : ∃ k, n = k + 1 := ⟨n - 1, by omega⟩
      obtain ⟨e', al', d', b', g1, g2, g3, g4, g5, _⟩ := AttrList.next_encoded V.img e es b he al hh d hd
      obtain ⟨d2, k1, k2⟩ := i2 fuel hf n (by simp at hn; omega) out al' b' g5 g4 d' g2
      refine ⟨d2, ?_, k2⟩
      rw [attrEntries, g1]
      dsimp only
      rw [if_pos (by rw [ListEntry.record_view g3]; exact hr), k1]
    rcases hes e (by simp) with h | ⟨⟨t, ht⟩, ⟨x, hx⟩ | ⟨file, off, hl, hc⟩⟩
    · exact absurd h hr
    · refine ⟨[], some x, .fails e es x hr hx, 0, fun fuel hf n hn out al b hh he d hd => ?_⟩
      obtain ⟨n, rfl⟩ : ∃ k, n = k + 1 := ⟨n - 1, by omega⟩
      obtain ⟨e', al', d', b', g1, g2, g3, g4, g5, _⟩ := AttrList.next_encoded V.img e es b he al hh d hd
      obtain ⟨d2, k1, k2⟩ := ListEntry.follow_fails hm e' e g3 t ht x hx d' g2
      refine ⟨d2, ?_, k1⟩
      rw [attrEntries, g1]
      dsimp only
      rw [if_neg (by rw [ListEntry.record_view g3]; exact hr), k2, List.append_nil]
      rfl
    · obtain ⟨_, _, ⟨_, len, _, hat, _⟩, _⟩ := id hl
      obtain ⟨l, o1, p1, n2, p2⟩ := attrPrint_spec withRuns hat.plain hc e.record true
      cases o1 with
      | some x =>
        refine ⟨l, some x, .bad e es file off l x hr hl p1, n2, fun fuel hf n hn out al b hh he d hd => ?_⟩
        obtain ⟨n, rfl⟩ : ∃ k, n = k + 1 := ⟨n - 1, by omega⟩
        obtain ⟨e', al', d', b', g1, g2, g3, g4, g5, _⟩ := AttrList.next_encoded V.img e es b he al hh d hd
        obtain ⟨d2, k1, k2⟩ := ListEntry.follow_loads hm e' e g3 t ht file off hl d' g2
        refine ⟨d2, ?_, k1⟩
        rw [attrEntries, g1]
        dsimp only
        rw [if_neg (by rw [ListEntry.record_view g3]; exact hr), k2]
        dsimp only
        rw [ListEntry.record_view g3, p2 fuel hf]
        rfl
      | none =>
        refine ⟨l ++ l', o, .shown e es file off l l' o hr hl p1 i1, max n1 n2,
          fun fuel hf n hn out al b hh he d hd => ?_⟩
        obtain ⟨n, rfl⟩ : ∃ k, n = k + 1 := ⟨n - 1, by omega⟩
        obtain ⟨e', al', d', b', g1, g2, g3, g4, g5, _⟩ := AttrList.next_encoded V.img e es b he al hh d hd
        obtain ⟨d2, k1, k2⟩ := ListEntry.follow_loads hm e' e g3 t ht file off hl d' g2
        obtain ⟨d3, k3, k4⟩ := i2 fuel (by omega) n (by simp at hn; omega) (out ++ l) al' b' g5 g4 d2 k1
        refine ⟨d3, ?_, k4⟩
        rw [attrEntries, g1]
        dsimp only
        rw [if_neg (by rw [ListEntry.record_view g3]; exact hr), k2]
        dsimp only
        rw [ListEntry.record_view g3, p2 fuel (by omega)]
        dsimp only [endsWith]
        rw [k3, List.append_assoc]
        rfl

/-- Such a list cannot be opened. -/
theorem Spec.ListLost.fails {file : NFile} {off len : Nat} {x : Err} (h : ListLost file off x)
    (hat : AttrAt file.recordData off len) (d : Dev) :
    (Attr.mk file off none).attributeList d = (.err x, d) := by
  obtain ⟨h1, h2, h3, h4⟩ := h
  have hv := hat.valid (f := file) none
  have hty : Attr.ty ⟨file, off, none⟩ = .ok .attributeList := (Attr.ty_ok_iff hv.header).2 h1
  have e1 : Attr.ensureTy ⟨file, off, none⟩ .attributeList = .ok () := by
    unfold Attr.ensureTy
    rw [hty, Res.bind_ok, if_neg (by simp)]
  have hv2 := Attr.residentValue_eq (a := ⟨file, off, none⟩) hv.header h2 h3 _ _ _ rfl rfl rfl hv.inside
  have e2 : Attr.residentValue ⟨file, off, none⟩ = .err x := by
    rw [hv2]
    simp only [Attr.recordData]
    rcases h4 with ⟨g1, rfl⟩ | ⟨g1, g2, rfl⟩
    · rw [if_pos g1]
    · rw [if_neg (by omega), if_pos g2]
  unfold Attr.attributeList
  rw [StM.bind_of_ok (a := ()) (s' := d) (by rw [StM.lift_apply, e1])]
  have e3 : Attr.value ⟨file, off, none⟩ d = (.err x, d) := by
    unfold Attr.value
    dsimp only
    rw [StM.bind_of_err (e := x) (s' := d)]
    rw [StM.lift_apply]
    unfold Attr.simpleValue
    rw [Attr.isResident_eq hv.header, Res.bind_ok]
    simp only [Attr.recordData]
    rw [h2, if_pos (by decide), e2]
    rfl
  rw [StM.bind_of_err e3]

/-- The loop over the attributes of the record. -/
theorem attrLoop_spec (withRuns : Bool) {mft : NFile} {mpre : List Nat} {moff mlen mstart : Nat}
    (hm : MftStored V.ntfs V.img mft V.mftEs mpre moff mlen mstart) (hbn : V.base.ntfs = V.ntfs) (offs : List Nat)
    (fin start stop : Nat) (hch : Chain V.base.recordData start offs fin)
    (hfin : ∀ len, EndsAt V.base.recordData fin ∨ ¬ AttrAt V.base.recordData fin len)
    (hall : ∀ off ∈ offs, Complete withRuns V.base off ∧ (field V.base.recordData off 4 = 0x20 →
      (∃ x, ListLost V.base off x) ∨ ∃ len es, AttrAt V.base.recordData off len ∧ ListStored V.ntfs V.img V.base off len es ∧
        ∀ e ∈ es, Follows withRuns V e)) :
    ∃ l q, Table withRuns V fin offs l q ∧ ∃ n0, ∀ fuel ≥ n0, ∀ n > offs.length, ∀ (out : List AttrLine) (d : Dev),
      d.Ok V.img → ∃ d', attrLoop withRuns V.ntfs V.base fuel n out ⟨V.base, start, stop⟩ d = (q, out ++ l, d') ∧
        d'.Ok V.img := by
  induction hch with
  | nil off =>
    rcases AttrsRaw.next_cases ⟨V.base, off, stop⟩ with ⟨h1, h2⟩ | ⟨len, h1, h2⟩ | ⟨h1, h2, h3⟩
    · refine ⟨[], .ok (), .done h1, 0, fun fuel _ n hn out d hd => ?_⟩
      obtain ⟨n, rfl⟩ : ∃ k, n = k + 1 := ⟨n - 1, by simp at hn; omega⟩
      exact ⟨d, by rw [attrLoop, h2, List.append_nil], hd⟩
    · rcases hfin len with h | h
      · exact absurd (h (by have := h1.header; have := h1.inside; dsimp only at *; omega)) h1.ty
      · exact absurd h1 h
    · refine ⟨[], _, .broken h1, 0, fun fuel _ n hn out d hd => ?_⟩
      obtain ⟨n, rfl⟩ : ∃ k, n = k + 1 := ⟨n - 1, by simp at hn; omega⟩
      exact ⟨d, by rw [attrLoop, h3, List.append_nil], hd⟩
  | @cons off len fin offs hat ht ih =>
    have hnext : AttrsRaw.next ⟨V.base, off, stop⟩ =
        (some (.ok ⟨V.base, off, none⟩), ⟨V.base, off + len, stop⟩) := by
      rcases AttrsRaw.next_cases ⟨V.base, off, stop⟩ with ⟨h1, h2⟩ | ⟨len', h1, h2⟩ | ⟨h1, h2, h3⟩
      · exact absurd (h1 (by have := hat.header; have := hat.inside; dsimp only at *; omega)) hat.ty
      · have := h1.length; have := hat.length
        dsimp only at *
        obtain rfl : len' = len := by omega
        rw [h2]
      · exact absurd hat (h2 len)
    obtain ⟨l2, q, i1, n1, i2⟩ := ih hfin (fun o ho => hall o (by simp [ho]))
    obtain ⟨hc, hlist⟩ := hall off (by simp)
    obtain ⟨l, o, p1, n2, p2⟩ := attrPrint_spec withRuns hat.plain hc V.base.number false
    cases o with
    | some x =>
      refine ⟨l, .err x, .bad off offs l x p1, n2, fun fuel hf n hn out d hd => ⟨d, ?_, hd⟩⟩
      obtain ⟨n, rfl⟩ : ∃ k, n = k + 1 := ⟨n - 1, by omega⟩
      rw [attrLoop, hnext]
      dsimp only
      have hown : attrOwn withRuns V.ntfs V.base fuel ⟨V.base, off, none⟩ out d = (.err x, out ++ l, d) := by
        unfold attrOwn
        cases p1 with
        | badType h => rw [Attr.ty_bad hat.plain.header h, List.append_nil]
        | _ =>
          first
          | (rename_i h1 h2; obtain ⟨t, h1⟩ := (typeCodes_iff _).1 h1)
          | skip
          first
          | rw [(Attr.ty_ok_iff (a := ⟨V.base, off, none⟩) hat.plain.header).2 (by assumption)]
          dsimp only
          rw [show V.base.fileRecordNumber = V.base.number from rfl, p2 fuel hf d]
          rfl
      rw [hown]
    | none =>
      have hty : field V.base.recordData off 4 ∈ typeCodes := by
        cases p1 with
        | short _ _ _ h => exact (typeCodes_iff _).2 ⟨_, h⟩
        | resident _ _ _ h => exact (typeCodes_iff _).2 ⟨_, h⟩
        | runs _ _ _ _ _ h => exact (typeCodes_iff _).2 ⟨_, h⟩
      obtain ⟨t, htc⟩ := (typeCodes_iff _).1 hty
      have ety : Attr.ty ⟨V.base, off, none⟩ = .ok t :=
        (Attr.ty_ok_iff (a := ⟨V.base, off, none⟩) hat.plain.header).2 htc
      by_cases hal : field V.base.recordData off 4 = 0x20
      case neg =>
        refine ⟨l ++ l2, q, .shown off offs l l2 q hal p1 i1, max n1 n2, fun fuel hf n hn out d hd => ?_⟩
        obtain ⟨n, rfl⟩ : ∃ k, n = k + 1 := ⟨n - 1, by omega⟩
        have hown : attrOwn withRuns V.ntfs V.base fuel ⟨V.base, off, none⟩ out d = (.ok (), out ++ l, d) := by
          unfold attrOwn
          rw [ety]
          dsimp only
          rw [show V.base.fileRecordNumber = V.base.number from rfl, p2 fuel (by omega) d]
          dsimp only [endsWith]
          rw [if_neg (by rintro rfl; exact hal htc)]
        obtain ⟨d', k1, k2⟩ := i2 fuel (by omega) n (by simp at hn; omega) (out ++ l) d hd
        refine ⟨d', ?_, k2⟩
        rw [attrLoop, hnext]
        dsimp only
        rw [hown]
        dsimp only
        rw [k1, List.append_assoc]
      case pos =>
        obtain rfl : t = .attributeList := AttrType.code_inj (by rw [← htc, hal]; rfl)
        rcases hlist hal with ⟨x, hx⟩ | ⟨len', es, ha', hst, hes⟩
        · refine ⟨l, .err x, .listLost off offs l x hx p1, n2, fun fuel hf n hn out d hd => ⟨d, ?_, hd⟩⟩
          obtain ⟨n, rfl⟩ : ∃ k, n = k + 1 := ⟨n - 1, by omega⟩
          rw [attrLoop, hnext]
          dsimp only
          have hown : attrOwn withRuns V.ntfs V.base fuel ⟨V.base, off, none⟩ out d = (.err x, out ++ l, d) := by
            unfold attrOwn
            rw [ety]
            dsimp only
            rw [show V.base.fileRecordNumber = V.base.number from rfl, p2 fuel hf d]
            dsimp only [endsWith]
            rw [if_pos rfl, hx.fails hat]
          rw [hown]
        obtain ⟨_, al, b, o1, o2, o3⟩ := ListStored.opens hbn ha' hst
        obtain ⟨l1, o, e1, n3, e2⟩ := attrEntries_spec withRuns hm es hes
        have hown : ∀ fuel ≥ max n2 (max n3 (es.length + 1)), ∀ (out : List AttrLine) (d : Dev), d.Ok V.img →
            ∃ d', attrOwn withRuns V.ntfs V.base fuel ⟨V.base, off, none⟩ out d =
              (endsWith o, out ++ (l ++ l1), d') ∧ d'.Ok V.img := by
          intro fuel hf out d hd
          obtain ⟨d', k1, k2⟩ := e2 fuel (by omega) fuel (by omega) (out ++ l) al b o1 o2 d hd
          refine ⟨d', ?_, k2⟩
          unfold attrOwn
          rw [ety]
          dsimp only
          rw [show V.base.fileRecordNumber = V.base.number from rfl, p2 fuel (by omega) d]
          dsimp only [endsWith]
          rw [if_pos rfl, o3 d]
          dsimp only
          rw [k1, List.append_assoc]
          rfl
        cases o with
        | some x =>
          refine ⟨l ++ l1, .err x, .listBad off len' offs es l l1 x ha' hst p1 e1, max n2 (max n3 (es.length + 1)),
            fun fuel hf n hn out d hd => ?_⟩
          obtain ⟨n, rfl⟩ : ∃ k, n = k + 1 := ⟨n - 1, by omega⟩
          obtain ⟨d', k1, k2⟩ := hown fuel hf out d hd
          refine ⟨d', ?_, k2⟩
          rw [attrLoop, hnext]
          dsimp only
          rw [k1]
          rfl
        | none =>
          refine ⟨l ++ (l1 ++ l2), q, .list off len' offs es l l1 l2 q ha' hst p1 e1 i1,
            max n1 (max n2 (max n3 (es.length + 1))), fun fuel hf n hn out d hd => ?_⟩
          obtain ⟨n, rfl⟩ : ∃ k, n = k + 1 := ⟨n - 1, by omega⟩
          obtain ⟨d', k1, k2⟩ := hown fuel (by omega) out d hd
          obtain ⟨d2, k3, k4⟩ := i2 fuel (by omega) n (by simp at hn; omega) (out ++ (l ++ l1)) d' k2
          refine ⟨d2, ?_, k4⟩
          rw [attrLoop, hnext]
          dsimp only
          rw [k1]
          dsimp only [endsWith]
          rw [k3]
          simp only [List.append_assoc]

/-- The attributes of the file record are at `offs`, the attribute lists among them have entries that can be
followed, and no header is cut off by the end of a record. -/
structure Tabular (withRuns : Bool) (V : View) (offs : List Nat) (fin : Nat) : Prop where
  volume : V.base.ntfs = V.ntfs
  record : 32 ≤ V.base.recordData.length
  mft : ∃ mft mpre moff mlen mstart, MftStored V.ntfs V.img mft V.mftEs mpre moff mlen mstart
  chain : Chain V.base.recordData (field V.base.recordData 20 2) offs fin
  end' : ∀ len, EndsAt V.base.recordData fin ∨ ¬ AttrAt V.base.recordData fin len
  complete : ∀ off ∈ offs, Complete withRuns V.base off
  lists : ∀ off ∈ offs, field V.base.recordData off 4 = 0x20 →
    (∃ x, ListLost V.base off x) ∨ ∃ len es, AttrAt V.base.recordData off len ∧ ListStored V.ntfs V.img V.base off len es ∧
      ∀ e ∈ es, Follows withRuns V e

/-- C63: `attr` prints one line for every attribute of the file record in order, and after the line of an
attribute list one line for every entry that leads to another file record; `attr_runs` also prints the data
runs of every non-resident attribute. It ends at the first error, with the lines up to there. -/
theorem C63_attr (withRuns : Bool) (offs : List Nat) (fin : Nat) (h : Tabular withRuns V offs fin) :
    ∃ l q, Table withRuns V fin offs l q ∧ ∃ n0, ∀ fuel ≥ n0, ∀ d : Dev, d.Ok V.img →
      ∃ d', V.base.attr withRuns V.ntfs fuel d = (q, l, d') ∧ d'.Ok V.img := by
  obtain ⟨mft, mpre, moff, mlen, mstart, hm⟩ := h.mft
  have e := NFile.attributesRaw_eq V.base h.record
  obtain ⟨l, q, h1, n0, h2⟩ := attrLoop_spec withRuns hm h.volume offs fin _
    (field V.base.recordData 24 4) h.chain h.end'
    (fun o ho => ⟨h.complete o ho, h.lists o ho⟩)
  refine ⟨l, q, h1, max n0 (offs.length + 1), fun fuel hf d hd => ?_⟩
  obtain ⟨d', k1, k2⟩ := h2 fuel (by omega) fuel (by omega) [] d hd
  refine ⟨d', ?_, k2⟩
  unfold NFile.attr
  rw [e]
  exact k1

end NT
