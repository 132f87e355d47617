import Verif.Props.C03_ListValue
import Verif.Spec.Flatten

/-! C23: the flattened attribute iteration. -/

namespace NT

open Spec

/-- What the caller sees in `n` calls of `next`. -/
def Attrs.calls : Nat → Attrs × Dev → List (Res (Option AttrItem))
  | 0, _ => []
  | n + 1, s => (Attrs.next s).1 :: Attrs.calls n (Attrs.next s).2

/-- The entry `e` leads to the attribute at `off` of the file record `file`: the MFT (extents `mftEs`)
has this record at the record number in the entry, and its first attribute with the type and the
instance number in the entry is at `off`. -/
def Loads (ntfs : Ntfs) (img : Bytes) (mftEs : List Extent) (e : LEntry) (file : NFile) (off : Nat) :
    Prop :=
  e.record * ntfs.fileRecordSize < U64 ∧
  (∃ a, addressOf ntfs.clusterSize mftEs (e.record * ntfs.fileRecordSize) = some a ∧
    a + ntfs.fileRecordSize ≤ img.length ∧
    NFile.ofBytes ntfs ((img.drop a).take ntfs.fileRecordSize) a e.record = .ok file) ∧
  (∃ pre len, Chain file.recordData (field file.recordData 20 2) pre off ∧
    AttrAt file.recordData off len ∧
    ∀ q ∈ pre, NotWanted file.recordData q typeCodes e.ty none (some e.inst)) ∧
  field file.recordData off 4 = e.ty ∧ field file.recordData (off + 14) 2 = e.inst

/-- The entry `e` leads to the error `x`: its record is not in the MFT, not in the image, not a valid
file record, or has no attribute with this type and instance number. -/
inductive LoadFails (ntfs : Ntfs) (img : Bytes) (mftEs : List Extent) (e : LEntry) : Err → Prop
  | tooBig : U64 ≤ e.record * ntfs.fileRecordSize → LoadFails ntfs img mftEs e (.invalidFileRecordNumber e.record)
  | outside : e.record * ntfs.fileRecordSize < U64 →
      addressOf ntfs.clusterSize mftEs (e.record * ntfs.fileRecordSize) = none →
      LoadFails ntfs img mftEs e (.invalidFileRecordNumber e.record)
  | image (a : Nat) : e.record * ntfs.fileRecordSize < U64 →
      addressOf ntfs.clusterSize mftEs (e.record * ntfs.fileRecordSize) = some a →
      img.length < a + ntfs.fileRecordSize → LoadFails ntfs img mftEs e (.io .unexpectedEof)
  | record (a : Nat) (x : Err) : e.record * ntfs.fileRecordSize < U64 →
      addressOf ntfs.clusterSize mftEs (e.record * ntfs.fileRecordSize) = some a →
      a + ntfs.fileRecordSize ≤ img.length →
      NFile.ofBytes ntfs ((img.drop a).take ntfs.fileRecordSize) a e.record = .err x →
      LoadFails ntfs img mftEs e x
  | noAttribute (a : Nat) (file : NFile) (t : AttrType) (offs : List Nat) (fin : Nat) :
      e.record * ntfs.fileRecordSize < U64 →
      addressOf ntfs.clusterSize mftEs (e.record * ntfs.fileRecordSize) = some a →
      a + ntfs.fileRecordSize ≤ img.length →
      NFile.ofBytes ntfs ((img.drop a).take ntfs.fileRecordSize) a e.record = .ok file →
      e.ty = t.code →
      Chain file.recordData (field file.recordData 20 2) offs fin → EndsAt file.recordData fin →
      (∀ q ∈ offs, NotWanted file.recordData q typeCodes e.ty none (some e.inst)) →
      LoadFails ntfs img mftEs e (.attributeNotFound file.position t)

/-- What an entry leads to, in terms of the image. -/
def KindOf (ntfs : Ntfs) (img : Bytes) (mftEs : List Extent) (e : LEntry) : Kind → Prop
  | .resident => ∃ file off, Loads ntfs img mftEs e file off ∧ field file.recordData (off + 8) 1 = 0
  | .split => ∃ file off, Loads ntfs img mftEs e file off ∧ field file.recordData (off + 8) 1 ≠ 0
  | .fails => ∃ x, LoadFails ntfs img mftEs e x

/-- What the caller gets for an entry `e` that is shown, if the list goes on with `after`: an item
with the attribute that the entry leads to (and, if it is non-resident, with an iterator over the list
from this entry on), or the error that it leads to. -/
def Shows (ntfs : Ntfs) (img : Bytes) (mftEs : List Extent) (base : NFile) (e : LEntry)
    (after : List LEntry) (r : Res (Option AttrItem)) : Prop :=
  (∃ i file, r = .ok (some i) ∧ i.file = base ∧ i.valueFile = some file ∧
    Loads ntfs img mftEs e file i.offset ∧
    (field file.recordData (i.offset + 8) 1 = 0 → i.list = none) ∧
    (field file.recordData (i.offset + 8) 1 ≠ 0 →
      ∃ l b, i.list = some l ∧ l.Holds img b ∧ ListEncodes (e :: after) b)) ∨
  (∃ x, r = .err x ∧ LoadFails ntfs img mftEs e x)

section
variable {ntfs : Ntfs} {img : Bytes} {mft : NFile} {mftEs : List Extent}
  {mpre : List Nat} {moff mlen mstart : Nat}

theorem ListEntry.record_view {e : ListEntry} {x : LEntry} (h : e.view = x) :
    e.ref.fileRecordNumber = x.record := by
  have h1 : leNat e.ref.bytes = x.ref := by rw [← h]; rfl
  unfold FileRef.fileRecordNumber LEntry.record
  rw [h1]
  exact Nat.and_two_pow_sub_one_eq_mod _ 48

theorem ListEntry.ty_view {e : ListEntry} {x : LEntry} (h : e.view = x) {t : AttrType}
    (ht : x.ty = t.code) : e.ty = .ok t := by
  have : e.tyCode = t.code := by rw [← ht, ← h]; rfl
  unfold ListEntry.ty
  rw [AttrType.ofCode_eq_some.2 this]
  rfl

theorem ListEntry.inst_view {e : ListEntry} {x : LEntry} (h : e.view = x) : e.inst = x.inst := by
  rw [← h]; rfl

/-- An entry that leads to an attribute gives an item for it. -/
theorem Attrs.itemOf_loads (hm : MftStored ntfs img mft mftEs mpre moff mlen mstart) (it : Attrs)
    (hit : it.raw.file.ntfs = ntfs) (l : AttrList) (e : ListEntry) (x : LEntry) (hx : e.view = x)
    (t : AttrType) (ht : x.ty = t.code) (file : NFile) (off : Nat)
    (h : Loads ntfs img mftEs x file off) (d : Dev) (hd : d.Ok img) :
    ∃ d', d'.Ok img ∧
      (field file.recordData (off + 8) 1 = 0 → it.itemOf l e t d =
        (.ok ({ file := it.raw.file, valueFile := some file, offset := off, list := none }, none), d')) ∧
      (field file.recordData (off + 8) 1 ≠ 0 → it.itemOf l e t d =
        (.ok ({ file := it.raw.file, valueFile := some file, offset := off, list := some l },
          some (x.inst, t)), d')) := by
  obtain ⟨hlt, ⟨a, ha1, ha2, ha3⟩, ⟨pre, len, hc, hat, hp⟩, hty, hinst⟩ := h
  obtain ⟨_, r, _, hfr, h32, _⟩ := (NFile.ofBytes_ok_iff _ _ _ _ _).1 ha3
  have hfn : file.number = x.record := by rw [hfr]
  have hl32 : 32 ≤ file.recordData.length := by rw [hfr]; exact h32
  have hah := hat.header
  have hai := hat.inside
  have hHI : (Attr.mk file off none).HeaderIn := by
    unfold Attr.HeaderIn; simp only [Attr.recordData]; omega
  rw [ht] at hp hty
  have hfind : file.findResidentAttribute t none (some x.inst) = .ok ⟨file, off, none⟩ :=
    (C22_first_match file hl32 t none (some x.inst) _).2 ⟨pre, off, hc, ⟨len, hat⟩, rfl,
      ⟨hty, by intro i hi; cases hi; exact hinst, by simp⟩, hp⟩
  obtain ⟨d', hf, hi', hd'⟩ := Ntfs.file_eq ntfs img mft mftEs mpre moff mlen mstart hm d hd.2 hd.1
    x.record
  rw [if_neg (by omega), ha1] at hf
  dsimp only at hf
  rw [if_pos ha2, ha3] at hf
  have hres : (Attr.mk file off none).isResident =
      .ok (field file.recordData (off + 8) 1 == 0) := Attr.isResident_eq hHI
  refine ⟨d', ⟨hi', hd'⟩, ?_, ?_⟩
  · intro h0
    unfold Attrs.itemOf ListEntry.toFile ListEntry.toAttribute
    rw [hit, ListEntry.record_view hx, StM.bind_of_ok hf]
    rw [StM.bind_of_ok (a := Attr.mk file off none) (s' := d') (by
      rw [StM.lift_apply, hfn, if_pos rfl, ListEntry.ty_view hx ht, Res.bind_ok,
        ListEntry.inst_view hx, hfind])]
    rw [StM.bind_of_ok (a := true) (s' := d') (by rw [StM.lift_apply, hres, h0]; rfl)]
    rfl
  · intro h0
    unfold Attrs.itemOf ListEntry.toFile ListEntry.toAttribute
    rw [hit, ListEntry.record_view hx, StM.bind_of_ok hf]
    rw [StM.bind_of_ok (a := Attr.mk file off none) (s' := d') (by
      rw [StM.lift_apply, hfn, if_pos rfl, ListEntry.ty_view hx ht, Res.bind_ok,
        ListEntry.inst_view hx, hfind])]
    have : (field file.recordData (off + 8) 1 == 0) = false := by simpa using h0
    rw [StM.bind_of_ok (a := false) (s' := d') (by rw [StM.lift_apply, hres, this])]
    rw [if_neg (by simp), ← ListEntry.inst_view hx]
    rfl

/-- An entry that leads to an error gives this error. -/
theorem Attrs.itemOf_fails (hm : MftStored ntfs img mft mftEs mpre moff mlen mstart) (it : Attrs)
    (hit : it.raw.file.ntfs = ntfs) (l : AttrList) (e : ListEntry) (x : LEntry) (hx : e.view = x)
    (t : AttrType) (ht : x.ty = t.code) (err : Err)
    (h : LoadFails ntfs img mftEs x err) (d : Dev) (hd : d.Ok img) :
    ∃ d', d'.Ok img ∧ it.itemOf l e t d = (.err err, d') := by
  obtain ⟨d', hf, hi', hd'⟩ := Ntfs.file_eq ntfs img mft mftEs mpre moff mlen mstart hm d hd.2 hd.1
    x.record
  refine ⟨d', ⟨hi', hd'⟩, ?_⟩
  unfold Attrs.itemOf ListEntry.toFile
  rw [hit, ListEntry.record_view hx]
  cases h with
  | tooBig h1 =>
    rw [if_pos h1] at hf
    rw [StM.bind_of_err hf]
  | outside h1 h2 =>
    rw [if_neg (by omega), h2] at hf
    rw [StM.bind_of_err hf]
  | image a h1 h2 h3 =>
    rw [if_neg (by omega), h2] at hf
    dsimp only at hf
    rw [if_neg (by omega)] at hf
    rw [StM.bind_of_err hf]
  | record a _ h1 h2 h3 h4 =>
    rw [if_neg (by omega), h2] at hf
    dsimp only at hf
    rw [if_pos h3, h4] at hf
    rw [StM.bind_of_err hf]
  | noAttribute a file t' offs fin h1 h2 h3 h4 h5 h6 h7 h8 =>
    rw [if_neg (by omega), h2] at hf
    dsimp only at hf
    rw [if_pos h3, h4] at hf
    obtain ⟨_, r, _, hfr, h32, _⟩ := (NFile.ofBytes_ok_iff _ _ _ _ _).1 h4
    have hfn : file.number = x.record := by rw [hfr]
    have hl32 : 32 ≤ file.recordData.length := by rw [hfr]; exact h32
    have htt : t' = t := AttrType.code_inj (by rw [← h5, ht])
    subst htt
    rw [ht] at h8
    have hnf := (C22_not_found_iff file hl32 t' none (some x.inst) file.position t').2
      ⟨rfl, rfl, offs, fin, h6, h7, h8⟩
    rw [StM.bind_of_ok hf]
    rw [StM.bind_of_err (e := .attributeNotFound file.position t') (s' := d') (by
      unfold ListEntry.toAttribute
      rw [StM.lift_apply, ListEntry.record_view hx, hfn, if_pos rfl, ListEntry.ty_view hx ht,
        Res.bind_ok, ListEntry.inst_view hx, hnf])]

/-- Entries of the base record and entries that continue the previous value are passed over. -/
theorem Attrs.nextInList_pass (base : NFile) (sk : Option (Nat × AttrType)) (rest : List LEntry)
    (conn : List LEntry)
    (hc : ∀ c ∈ conn, ∃ t : AttrType, c.ty = t.code ∧ (c.record = base.number ∨ sk = some (c.inst, t)))
    (fuel : Nat) (hfuel : (conn ++ rest).length < fuel) (it : Attrs) (hb : it.raw.file = base)
    (hsk : it.skip = sk) (l : AttrList) (hl : it.list = some l) (b : Bytes)
    (he : ListEncodes (conn ++ rest) b) (hh : l.Holds img b) (d : Dev) (hd : d.Ok img) :
    ∃ fuel' l' b' d', d'.Ok img ∧ rest.length < fuel' ∧ ListEncodes rest b' ∧ l'.Holds img b' ∧
      nextInList fuel l (it, d) = nextInList fuel' l' ({ it with list := some l' }, d') := by
  induction conn generalizing fuel it l b d with
  | nil =>
    have : { it with list := some l } = it := by rw [← hl]
    exact ⟨fuel, l, b, d, hd, hfuel, he, hh, by rw [this]⟩
  | cons c cs ih =>
    obtain ⟨e', l', d', b', g1, g2, g3, g4, g5, _⟩ :=
      AttrList.next_encoded img c (cs ++ rest) b he l hh d hd
    obtain ⟨t, ht, hor⟩ := hc c (by simp)
    cases fuel with
    | zero => omega
    | succ fuel =>
      obtain ⟨fuel', l2, b2, d2, i1, i2, i3, i4, i5⟩ := ih (fun c' h' => hc c' (by simp [h'])) fuel
        (by simp only [List.cons_append, List.length_cons] at hfuel; omega)
        { it with list := some l' } hb hsk l' rfl b' g4 g5 d' g2
      refine ⟨fuel', l2, b2, d2, i1, i2, i3, i4, ?_⟩
      rw [← i5, nextInList]; dsimp only; rw [g1]
      dsimp only
      rw [ListEntry.ty_view g3 ht]
      dsimp only
      by_cases hr : e'.ref.fileRecordNumber = it.raw.file.number
      · rw [if_pos hr]
      · rw [if_neg hr]
        rcases hor with h | h
        · exact absurd (by rw [ListEntry.record_view g3, h, hb]) hr
        · rw [if_pos (by rw [hsk, h, ListEntry.inst_view g3])]

/-- The next entry that is shown. -/
theorem Attrs.nextInList_show (hm : MftStored ntfs img mft mftEs mpre moff mlen mstart) (base : NFile)
    (hbn : base.ntfs = ntfs) (e : LEntry) (t : AttrType) (ht : e.ty = t.code) (es : List LEntry)
    (hr : e.record ≠ base.number) (k : Kind) (hk : KindOf ntfs img mftEs e k)
    (fuel : Nat) (hfuel : 0 < fuel) (it : Attrs) (hb : it.raw.file = base)
    (hsk : it.skip ≠ some (e.inst, t)) (l : AttrList) (b : Bytes)
    (he : ListEncodes (e :: es) b) (hh : l.Holds img b) (d : Dev) (hd : d.Ok img) :
    ∃ r sk' l' b' d', d'.Ok img ∧ ListEncodes es b' ∧ l'.Holds img b' ∧
      nextInList fuel l (it, d) = (r, ({ it with list := some l', skip := sk' }, d')) ∧
      Shows ntfs img mftEs base e es r ∧ r ≠ .ok none ∧ sk' = (match k with
        | .split => some (e.inst, t)
        | _ => none) := by
  obtain ⟨e', l', d', b', g1, g2, g3, g4, g5, _⟩ := AttrList.next_encoded img e es b he l hh d hd
  cases fuel with
  | zero => omega
  | succ fuel =>
    have hstep : nextInList (fuel + 1) l (it, d) =
        match it.itemOf l e' t d' with
        | (.ok (item, skip), d'') => (.ok (some item), ({ it with list := some l', skip := skip }, d''))
        | (.err x, d'') => (.err x, ({ it with list := some l', skip := none }, d''))
        | (.panic p, d'') => (.panic p, ({ it with list := some l', skip := none }, d''))
        | (.diverge, d'') => (.diverge, ({ it with list := some l', skip := none }, d'')) := by
      rw [nextInList]; dsimp only; rw [g1]
      dsimp only
      rw [ListEntry.ty_view g3 ht]
      dsimp only
      rw [if_neg (by rw [ListEntry.record_view g3, hb]; exact hr),
        if_neg (by rw [ListEntry.inst_view g3]; exact hsk)]
      rcases it.itemOf l e' t d' with ⟨⟨_, _⟩ | _ | _ | _, _⟩ <;> rfl
    rw [hstep]
    have hitn : it.raw.file.ntfs = ntfs := by rw [hb]; exact hbn
    cases k with
    | resident =>
      obtain ⟨file, off, hload, h0⟩ := hk
      obtain ⟨d'', hd'', q1, _⟩ := itemOf_loads hm it hitn l e' e g3 t ht file off hload d' g2
      rw [q1 h0]
      refine ⟨_, none, l', b', d'', hd'', g4, g5, rfl, .inl ⟨_, file, rfl, hb, rfl, hload, fun _ => rfl,
        fun h => absurd h0 h⟩, by simp, rfl⟩
    | split =>
      obtain ⟨file, off, hload, h0⟩ := hk
      obtain ⟨d'', hd'', _, q1⟩ := itemOf_loads hm it hitn l e' e g3 t ht file off hload d' g2
      rw [q1 h0]
      refine ⟨_, some (e.inst, t), l', b', d'', hd'', g4, g5, rfl, .inl ⟨_, file, rfl, hb, rfl, hload,
        fun h => absurd h h0, fun _ => ⟨l, b, rfl, hh, he⟩⟩, by simp, rfl⟩
    | fails =>
      obtain ⟨x, hx⟩ := hk
      obtain ⟨d'', hd'', q1⟩ := itemOf_fails hm it hitn l e' e g3 t ht x hx d' g2
      rw [q1]
      exact ⟨_, none, l', b', d'', hd'', g4, g5, rfl, .inr ⟨x, rfl, hx⟩, by simp, rfl⟩

/-- Where the iterator stands inside the list: `es` are the entries still ahead, `gs` the ones that
will be shown. -/
structure Attrs.InList (img : Bytes) (K : LEntry → Kind → Prop) (base : NFile)
    (gs : List (LEntry × List LEntry)) (it : Attrs) : Prop where
  file : it.raw.file = base
  ahead : ∃ l b conn rest, it.list = some l ∧ l.Holds img b ∧ ListEncodes (conn ++ rest) b ∧
    (∀ c ∈ conn ++ rest, ∃ t : AttrType, c.ty = t.code) ∧
    (∀ c ∈ conn, ∀ t : AttrType, c.ty = t.code → c.record = base.number ∨ it.skip = some (c.inst, t)) ∧
    (it.skip = none ∨ ∀ x, rest.head? = some x → x.record ≠ base.number ∧
      ∀ t : AttrType, x.ty = t.code → it.skip ≠ some (x.inst, t)) ∧
    Groups base.number K rest gs

theorem Attrs.nextFromList_done (base : NFile) (K : LEntry → Kind → Prop) (it : Attrs)
    (h : it.InList img K base []) (d : Dev) (hd : d.Ok img) :
    ∃ l' d', d'.Ok img ∧ nextFromList (it, d) = (.ok none, ({ it with list := some l' }, d')) ∧
      Attrs.InList img K base [] { it with list := some l' } := by
  obtain ⟨l, b, conn, rest, hl, hh, he, hty, hconn, hsk, hg⟩ := h.ahead
  have hown : ∀ c ∈ rest, c.record = base.number := by
    clear hsk hty he
    generalize hgs : ([] : List (LEntry × List LEntry)) = gs at hg
    induction hg with
    | nil => simp
    | own e es gs h1 _ ih =>
      intro c hc
      rcases List.mem_cons.1 hc with rfl | hc
      · exact h1
      · exact ih hgs c hc
    | resident => cases hgs
    | fails => cases hgs
    | split => cases hgs
  have hlen := listEncodes_length _ _ he
  have hrem := hh.remaining
  obtain ⟨fuel', l', b', d', q1, q2, q3, q4, q5⟩ := nextInList_pass base it.skip [] (conn ++ rest)
    (by
      intro c hc
      obtain ⟨t, ht⟩ := hty c hc
      refine ⟨t, ht, ?_⟩
      rcases List.mem_append.1 hc with h' | h'
      · exact hconn c h' t ht
      · exact .inl (hown c h'))
    (l.remaining + 1) (by rw [List.append_nil]; omega) it h.file rfl l hl b
    (by rw [List.append_nil]; exact he) hh d hd
  cases q3 with
  | nil =>
  obtain ⟨d2, p1, p2, p3, _⟩ := AttrList.next_holds img l' [] q4 d' q1.2 q1.1
  refine ⟨l', d2, ⟨p2, p1⟩, ?_, h.file, l', [], [], [], rfl, q4, .nil, by simp, by simp, by simp, .nil⟩
  unfold nextFromList
  dsimp only
  rw [hl]
  dsimp only
  rw [q5]
  cases fuel' with
  | zero => simp at q2
  | succ n => rw [nextInList]; dsimp only; rw [p3 rfl]

theorem Attrs.nextFromList_show (hm : MftStored ntfs img mft mftEs mpre moff mlen mstart) (base : NFile)
    (hbn : base.ntfs = ntfs) (g : LEntry × List LEntry) (gs : List (LEntry × List LEntry)) (it : Attrs)
    (h : it.InList img (KindOf ntfs img mftEs) base (g :: gs)) (d : Dev) (hd : d.Ok img) :
    ∃ r it' d', d'.Ok img ∧ nextFromList (it, d) = (r, (it', d')) ∧ r ≠ .ok none ∧
      Shows ntfs img mftEs base g.1 g.2 r ∧ it'.raw = it.raw ∧
      it'.InList img (KindOf ntfs img mftEs) base gs := by
  obtain ⟨l, b, conn, rest, hl, hh, he, hty, hconn, hsk, hg⟩ := h.ahead
  -- entries of the base record in front of the shown one
  have hsplit : ∃ own e tail, rest = own ++ e :: tail ∧ (∀ c ∈ own, c.record = base.number) ∧
      (own ≠ [] → it.skip = none) ∧ Groups base.number (KindOf ntfs img mftEs) (e :: tail) (g :: gs) ∧
      e.record ≠ base.number := by
    clear he hty hconn
    generalize hgs : g :: gs = gs0 at hg
    induction hg with
    | nil => cases hgs
    | own e es gs' h1 hg' ih =>
      subst hgs
      have hn : it.skip = none := by
        rcases hsk with h' | h'
        · exact h'
        · exact absurd h1 (h' e rfl).1
      obtain ⟨own, e2, tail, i1, i2, i3, i4, i5⟩ := ih (.inl hn) rfl
      refine ⟨e :: own, e2, tail, by rw [i1]; rfl, ?_, fun _ => hn, i4, i5⟩
      intro c hc
      rcases List.mem_cons.1 hc with rfl | hc
      · exact h1
      · exact i2 c hc
    | resident e es gs' h1 h2 h3 =>
      exact ⟨[], e, es, rfl, by simp, by simp, .resident e es gs' h1 h2 h3, h1⟩
    | fails e es gs' h1 h2 h3 =>
      exact ⟨[], e, es, rfl, by simp, by simp, .fails e es gs' h1 h2 h3, h1⟩
    | split e co re gs' h1 h2 h3 h4 h5 =>
      exact ⟨[], e, co ++ re, rfl, by simp, by simp, .split e co re gs' h1 h2 h3 h4 h5, h1⟩
  obtain ⟨own, e, tail, rfl, hown, hskn, hg', hne⟩ := hsplit
  have hlen := listEncodes_length _ _ he
  have hrem := hh.remaining
  rw [← List.append_assoc] at he hlen hty
  obtain ⟨fuel', l', b', d', q1, q2, q3, q4, q5⟩ := nextInList_pass base it.skip (e :: tail)
    (conn ++ own)
    (by
      intro c hc
      obtain ⟨t, ht⟩ := hty c (List.mem_append_left _ hc)
      refine ⟨t, ht, ?_⟩
      rcases List.mem_append.1 hc with h' | h'
      · exact hconn c h' t ht
      · exact .inl (hown c h'))
    (l.remaining + 1) (by omega) it h.file rfl l hl b he hh d hd
  obtain ⟨t, ht⟩ := hty e (by simp)
  have hsk' : it.skip ≠ some (e.inst, t) := by
    rcases hsk with h' | h'
    · rw [h']; simp
    · cases own with
      | nil => exact (h' e rfl).2 t ht
      | cons c cs => rw [hskn (by simp)]; simp
  have hnext : nextFromList (it, d) = nextInList fuel' l' ({ it with list := some l' }, d') := by
    unfold nextFromList
    dsimp only
    rw [hl]
    dsimp only
    rw [q5]
  rw [hnext]
  have htail : ∀ c ∈ tail, ∃ t : AttrType, c.ty = t.code := fun c hc => hty c (by simp [hc])
  cases hg' with
  | own _ _ _ h1 _ => exact absurd h1 hne
  | resident _ _ _ h1 h2 h3 =>
    obtain ⟨r, sk', l2, b2, d2, p1, p2, p3, p4, p5, p6, p7⟩ := nextInList_show hm base hbn e t ht tail hne
      .resident h2 fuel' (by omega) { it with list := some l' } h.file hsk' l' b' q3 q4 d' q1
    exact ⟨r, _, d2, p1, p4, p6, p5, rfl, h.file, l2, b2, [], tail, rfl, p3, p2, htail, by simp,
      .inl p7, h3⟩
  | fails _ _ _ h1 h2 h3 =>
    obtain ⟨r, sk', l2, b2, d2, p1, p2, p3, p4, p5, p6, p7⟩ := nextInList_show hm base hbn e t ht tail hne
      .fails h2 fuel' (by omega) { it with list := some l' } h.file hsk' l' b' q3 q4 d' q1
    exact ⟨r, _, d2, p1, p4, p6, p5, rfl, h.file, l2, b2, [], tail, rfl, p3, p2, htail, by simp,
      .inl p7, h3⟩
  | split _ co re _ h1 h2 h3 h4 h5 =>
    obtain ⟨r, sk', l2, b2, d2, p1, p2, p3, p4, p5, p6, p7⟩ := nextInList_show hm base hbn e t ht (co ++ re)
      hne .split h2 fuel' (by omega) { it with list := some l' } h.file hsk' l' b' q3 q4 d' q1
    dsimp only at p7
    refine ⟨r, _, d2, p1, p4, p6, p5, rfl, h.file, l2, b2, co, re, rfl, p3, p2, htail, ?_,
      .inr ?_, h5⟩
    · intro c hc t' ht'
      rcases h3 c hc with h' | ⟨h', h''⟩
      · exact .inl h'
      · have : t' = t := AttrType.code_inj (by rw [← ht', h', ht])
        subst this
        exact .inr (by rw [p7, h''])
    · intro x hx
      obtain ⟨g1, g2⟩ := h4 x hx
      refine ⟨g1, ?_⟩
      intro t' ht' heq
      rw [p7] at heq
      injection heq with heq
      injection heq with e1 e2
      exact g2 ⟨by rw [ht', ← e2, ht], e1.symm⟩

/-- The attribute of `len` bytes at `off` of the record `f` is an attribute list whose contents are
the entries `es`, stored in the attribute itself or in the runs that it describes. -/
inductive ListStored (ntfs : Ntfs) (img : Bytes) (f : NFile) (off len : Nat) (es : List LEntry) : Prop
  | resident (start length : Nat) :
      field f.recordData off 4 = 0x20 → field f.recordData (off + 8) 1 = 0 → 22 ≤ len →
      field f.recordData (off + 20) 2 = start → field f.recordData (off + 16) 4 = length →
      start + length ≤ len → ListEncodes es ((f.recordData.drop (off + start)).take length) →
      ListStored ntfs img f off len es
  | nonResident (start size : Nat) (rs : List Extent) :
      field f.recordData off 4 = 0x20 → field f.recordData (off + 8) 1 ≠ 0 → 56 ≤ len →
      field f.recordData (off + 32) 2 = start → start ≤ len →
      StoredAs ntfs.clusterSize img ((f.recordData.drop (off + start)).take (len - start)) rs →
      field f.recordData (off + 48) 8 = size → size ≤ (content ntfs.clusterSize img rs).length →
      ListEncodes es ((content ntfs.clusterSize img rs).take size) →
      ListStored ntfs img f off len es

theorem ListStored.opens {f : NFile} {off len : Nat} {es : List LEntry} (hf : f.ntfs = ntfs)
    (ha : AttrAt f.recordData off len) (h : ListStored ntfs img f off len es) :
    (Attr.mk f off none).ty = .ok .attributeList ∧
    ∃ l b, l.Holds img b ∧ ListEncodes es b ∧
      ∀ d : Dev, (Attr.mk f off none).attributeList d = (.ok l, d) := by
  have hah := ha.header
  have hai := ha.inside
  have hHI : (Attr.mk f off none).HeaderIn := by
    unfold Attr.HeaderIn; simp only [Attr.recordData]; omega
  have hty : (Attr.mk f off none).ty = .ok .attributeList := by
    refine (Attr.ty_ok_iff hHI).2 ?_
    cases h with
    | resident _ _ h1 => exact h1
    | nonResident _ _ _ h1 => exact h1
  refine ⟨hty, ?_⟩
  have hens : (Attr.mk f off none).ensureTy .attributeList = .ok () := by
    unfold Attr.ensureTy; rw [hty]; rfl
  cases h with
  | resident start length h1 h2 h3 h4 h5 h6 h7 =>
    have hrv := Attr.residentValue_eq hHI h2 (by simp only [Attr.recordData]; omega) start length len
      h4 h5 ha.length hai
    rw [if_neg (by omega), if_neg (by omega)] at hrv
    refine ⟨.resident ((f.recordData.drop (off + start)).take length)
      (ResVal.dataPosition ⟨(f.recordData.drop (off + start)).take length, (Attr.mk f off none).position, 0⟩),
      _, rfl, h7, ?_⟩
    intro d
    unfold Attr.attributeList Attr.value
    rw [StM.bind_of_ok (a := ()) (s' := d) (by rw [StM.lift_apply, hens])]
    dsimp only
    have hsv : (Attr.mk f off none).simpleValue =
        .ok (.res ⟨(f.recordData.drop (off + start)).take length, (Attr.mk f off none).position, 0⟩) := by
      unfold Attr.simpleValue
      rw [Attr.isResident_eq hHI, hrv]
      simp only [Attr.recordData, h2]
      rfl
    rw [hsv]
    rfl
  | nonResident start size rs h1 h2 h3 h4 h5 h6 h7 h8 h9 =>
    have hrv := Attr.nonResidentValue_eq hHI h2 (by simp only [Attr.recordData]; omega) start len
      h4 ha.length hai
    rw [if_neg (by omega)] at hrv
    simp only [Attr.recordData, hf, h7] at hrv
    have hsize : size < U64 := by
      rw [← h7]
      exact field_lt (d := f.recordData) (a := off + 48) (n := 8) (by omega)
    obtain ⟨v, g1, g2, g3, g4, _⟩ := NonRes.new_good h6 (Pos.add f.position (off + start)) size hsize
    rw [g1] at hrv
    refine ⟨.nonResident v, _, ⟨h6.imgLt, _, g2, ?_, rfl⟩, ?_, ?_⟩
    · rw [g3, restBytes_runOf]; exact h8
    · rw [g3, g4, restBytes_runOf, List.drop_zero]; exact h9
    · intro d
      unfold Attr.attributeList Attr.value
      rw [StM.bind_of_ok (a := ()) (s' := d) (by rw [StM.lift_apply, hens])]
      dsimp only
      have hsv : (Attr.mk f off none).simpleValue = .ok (.nonRes v) := by
        unfold Attr.simpleValue
        rw [Attr.isResident_eq hHI, hrv]
        have : (field f.recordData (off + 8) 1 == 0) = false := by simpa using h2
        simp only [Attr.recordData, this]
        rfl
      rw [hsv]
      rfl

/-- The iterator is not inside a list (any more). -/
def Attrs.Spent (img : Bytes) (base : NFile) (it : Attrs) : Prop :=
  it.raw.file = base ∧
    (it.list = none ∨ ∃ K, Attrs.InList img K base [] it)

theorem Attrs.Spent.nextFromList {base : NFile} {it : Attrs} (h : it.Spent img base) (d : Dev)
    (hd : d.Ok img) :
    ∃ l' d', d'.Ok img ∧ Attrs.nextFromList (it, d) = (.ok none, ({ it with list := l' }, d')) ∧
      (it.list = none → l' = none) ∧ ∀ raw, raw.file = base → Attrs.Spent img base { it with list := l', raw := raw } := by
  rcases h with ⟨h0, h1 | ⟨K, h1⟩⟩
  · refine ⟨none, d, hd, ?_, fun _ => rfl, fun raw hr => ⟨hr, .inl rfl⟩⟩
    unfold Attrs.nextFromList
    dsimp only
    rw [h1]
    dsimp only
    rw [← h1]
  · obtain ⟨l', d', q1, q2, q3⟩ := Attrs.nextFromList_done base K it h1 d hd
    refine ⟨some l', d', q1, q2, fun h => ?_, fun raw hr => ⟨hr, .inr ⟨K, hr, ?_⟩⟩⟩
    · obtain ⟨l, _, _, _, hl, _⟩ := h1.ahead
      rw [h] at hl
      cases hl
    · exact q3.ahead

/-- The item for an attribute of the base record. -/
abbrev ownItem (f : NFile) (off : Nat) : Res (Option AttrItem) :=
  .ok (some { file := f, valueFile := none, offset := off, list := none })

/-- The result of the calls after the last attribute of the base record. -/
def EndResult (f : NFile) (fin : Nat) (r : Res (Option AttrItem)) : Prop :=
  (EndsAt f.recordData fin ∧ r = .ok none) ∨
  (¬ EndsAt f.recordData fin ∧ (∀ len, ¬ AttrAt f.recordData fin len) ∧
    r = .err (lengthError (Pos.add f.position fin) f.recordData fin))

/-- One call outside a list: the next attribute of the base record. -/
theorem Attrs.nextLoop_raw (base : NFile) (it : Attrs) (h : it.Spent img base) (d : Dev)
    (hd : d.Ok img) (len : Nat) (ha : AttrAt base.recordData it.raw.start len)
    (hty : field base.recordData it.raw.start 4 ≠ 0x20) :
    ∃ it' d', d'.Ok img ∧ it'.Spent img base ∧ it'.raw.start = it.raw.start + len ∧
      (it.list = none → it'.list = none) ∧ it'.skip = it.skip ∧
      ∀ fuel, nextLoop (fuel + 1) (it, d) = (ownItem base it.raw.start, (it', d')) := by
  obtain ⟨l', d', q1, q2, q4, q3⟩ := h.nextFromList d hd
  have hfile := h.1
  have hah := ha.header
  have hai := ha.inside
  have hnext : it.raw.next = (some (.ok ⟨base, it.raw.start, none⟩),
      { it.raw with start := it.raw.start + len }) := by
    rcases AttrsRaw.next_cases it.raw with ⟨e1, _⟩ | ⟨len', e1, e2⟩ | ⟨_, e2, _⟩
    · rw [hfile] at e1
      exact absurd (e1 (by omega)) ha.ty
    · rw [hfile] at e1 e2
      have := ha.length; have := e1.length
      have : len' = len := by omega
      subst this
      rw [e2, ← hfile]
    · rw [hfile] at e2; exact absurd ha (e2 len)
  have hHI : (Attr.mk base it.raw.start none).HeaderIn := by
    unfold Attr.HeaderIn; simp only [Attr.recordData]; omega
  refine ⟨{ it with list := l', raw := { it.raw with start := it.raw.start + len } }, d', q1,
    q3 _ hfile, rfl, q4, rfl, ?_⟩
  intro fuel
  rw [nextLoop, StM.bind_of_ok q2]
  dsimp only
  rw [hnext]
  dsimp only
  rw [Attr.ty_eq hHI]
  simp only [Attr.recordData]
  cases hof : AttrType.ofCode (field base.recordData it.raw.start 4) with
  | none => simp only [Res.ofOption, hfile]
  | some t =>
    have hne : t ≠ .attributeList := by
      rintro rfl
      exact hty (AttrType.ofCode_eq_some.1 hof)
    cases t <;> first | exact absurd rfl hne | simp only [Res.ofOption, hfile]

/-- Calls after the last attribute of the base record. -/
theorem Attrs.nextLoop_end (base : NFile) (it : Attrs) (h : it.Spent img base) (d : Dev)
    (hd : d.Ok img) (r : Res (Option AttrItem)) (he : EndResult base it.raw.start r) :
    ∃ it' d', d'.Ok img ∧ it'.Spent img base ∧ it'.raw.start = it.raw.start ∧
      ∀ fuel, nextLoop (fuel + 1) (it, d) = (r, (it', d')) := by
  obtain ⟨l', d', q1, q2, q4, q3⟩ := h.nextFromList d hd
  have hfile := h.1
  refine ⟨{ it with list := l' }, d', q1, q3 _ hfile, rfl, ?_⟩
  intro fuel
  rw [nextLoop, StM.bind_of_ok q2]
  dsimp only
  rcases he with ⟨e1, rfl⟩ | ⟨e1, e2, rfl⟩
  · rcases AttrsRaw.next_cases it.raw with ⟨_, g2⟩ | ⟨len', g1, _⟩ | ⟨g1, _, _⟩
    · rw [g2]
    · rw [hfile] at g1; exact absurd g1 (e1.noAttr len')
    · rw [hfile] at g1; exact absurd e1 g1
  · rcases AttrsRaw.next_cases it.raw with ⟨g1, _⟩ | ⟨len', g1, _⟩ | ⟨_, _, g3⟩
    · rw [hfile] at g1; exact absurd g1 e1
    · rw [hfile] at g1; exact absurd g1 (e2 len')
    · rw [g3, hfile]

theorem Attrs.next_eq (s : Attrs × Dev) :
    Attrs.next s = nextLoop (s.1.raw.file.recordData.length + 1) s := rfl

/-- Calls outside a list, with attributes other than lists ahead. -/
theorem Attrs.calls_raw (base : NFile) (offs : List Nat) (off fin : Nat)
    (hc : Chain base.recordData off offs fin) (hty : ∀ o ∈ offs, field base.recordData o 4 ≠ 0x20)
    (k : Nat) (it : Attrs) (hoff : it.raw.start = off) (h : it.Spent img base) (d : Dev)
    (hd : d.Ok img) :
    ∃ it' d', d'.Ok img ∧ it'.Spent img base ∧ it'.raw.start = fin ∧ (it.list = none → it'.list = none) ∧
      it'.skip = it.skip ∧
      Attrs.calls (offs.length + k) (it, d) = offs.map (ownItem base) ++ Attrs.calls k (it', d') := by
  induction hc generalizing it d with
  | nil off => exact ⟨it, d, hd, h, hoff, id, rfl, by simp⟩
  | @cons off len fin offs ha hc ih =>
    rw [← hoff] at ha
    obtain ⟨it1, d1, q1, q2, q3, q4, q5, q6⟩ := nextLoop_raw base it h d hd len ha
      (by rw [hoff]; exact hty off (by simp))
    obtain ⟨it', d', i1, i2, i3, i4, i5, i6⟩ := ih (fun o ho => hty o (by simp [ho])) it1
      (by rw [q3, hoff]) q2 d1 q1
    refine ⟨it', d', i1, i2, i3, fun hn => i4 (q4 hn), by rw [i5, q5], ?_⟩
    rw [List.length_cons, Nat.add_right_comm, Attrs.calls, next_eq, q6]
    dsimp only
    rw [i6, List.map_cons, List.cons_append, hoff]

/-- Calls after the last attribute of the base record. -/
theorem Attrs.calls_end (base : NFile) (r : Res (Option AttrItem)) (k : Nat) (it : Attrs)
    (he : EndResult base it.raw.start r) (h : it.Spent img base) (d : Dev) (hd : d.Ok img) :
    Attrs.calls k (it, d) = List.replicate k r := by
  induction k generalizing it d with
  | zero => rfl
  | succ k ih =>
    obtain ⟨it1, d1, q1, q2, q3, q6⟩ := nextLoop_end base it h d hd r he
    rw [Attrs.calls, next_eq, q6]
    dsimp only
    rw [ih it1 (by rw [q3]; exact he) q2 d1 q1, List.replicate_succ]

/-- Calls inside a list. -/
theorem Attrs.calls_list (hm : MftStored ntfs img mft mftEs mpre moff mlen mstart) (base : NFile)
    (hbn : base.ntfs = ntfs) (gs : List (LEntry × List LEntry)) (k : Nat) (it : Attrs)
    (h : it.InList img (KindOf ntfs img mftEs) base gs) (d : Dev) (hd : d.Ok img) :
    ∃ rs it' d', d'.Ok img ∧ it'.Spent img base ∧ it'.raw = it.raw ∧
      Each (fun g r => Shows ntfs img mftEs base g.1 g.2 r) gs rs ∧
      Attrs.calls (gs.length + k) (it, d) = rs ++ Attrs.calls k (it', d') := by
  induction gs generalizing it d with
  | nil => exact ⟨[], it, d, hd, ⟨h.file, .inr ⟨_, h⟩⟩, rfl, .nil, by simp⟩
  | cons g gs ih =>
    obtain ⟨r, it1, d1, q1, q2, q3, q4, q5, q6⟩ := nextFromList_show hm base hbn g gs it h d hd
    obtain ⟨rs, it', d', i1, i2, i3, i4, i5⟩ := ih it1 q6 d1 q1
    refine ⟨r :: rs, it', d', i1, i2, by rw [i3, q5], .cons q4 i4, ?_⟩
    have hloop : nextLoop (it.raw.file.recordData.length + 1) (it, d) = (r, (it1, d1)) := by
      rw [nextLoop, StM.bind_apply, q2]
      rcases q4 with ⟨i, _, rfl, _⟩ | ⟨x, rfl, _⟩ <;> rfl
    rw [List.length_cons, Nat.add_right_comm, Attrs.calls, next_eq]
    dsimp only
    rw [hloop]
    dsimp only
    rw [i5, List.cons_append]

/-- The first call inside a list does not depend on the fuel if no further list is ahead. -/
theorem Attrs.nextLoop_list (hm : MftStored ntfs img mft mftEs mpre moff mlen mstart) (base : NFile)
    (hbn : base.ntfs = ntfs) (gs : List (LEntry × List LEntry)) (it : Attrs)
    (h : it.InList img (KindOf ntfs img mftEs) base gs) (d : Dev) (hd : d.Ok img)
    (hraw : (∃ len, AttrAt base.recordData it.raw.start len ∧
        field base.recordData it.raw.start 4 ≠ 0x20) ∨ ∃ r, EndResult base it.raw.start r)
    (f1 f2 : Nat) : nextLoop (f1 + 1) (it, d) = nextLoop (f2 + 1) (it, d) := by
  cases gs with
  | nil =>
    rcases hraw with ⟨len, h1, h2⟩ | ⟨r, h1⟩
    · obtain ⟨_, _, _, _, _, _, _, q⟩ := nextLoop_raw base it ⟨h.file, .inr ⟨_, h⟩⟩ d hd len h1 h2
      rw [q, q]
    · obtain ⟨_, _, _, _, _, q⟩ := nextLoop_end base it ⟨h.file, .inr ⟨_, h⟩⟩ d hd r h1
      rw [q, q]
  | cons g gs =>
    obtain ⟨r, it1, d1, q1, q2, q3, q4, q5, q6⟩ := nextFromList_show hm base hbn g gs it h d hd
    rw [nextLoop, nextLoop, StM.bind_apply, StM.bind_apply, q2]
    rcases q4 with ⟨i, _, rfl, _⟩ | ⟨x, rfl, _⟩ <;> rfl

/-- The call that reaches the attribute list continues with its entries. -/
theorem Attrs.next_open (hm : MftStored ntfs img mft mftEs mpre moff mlen mstart) (base : NFile)
    (hbn : base.ntfs = ntfs) (es : List LEntry) (gs : List (LEntry × List LEntry)) (it : Attrs)
    (hfile : it.raw.file = base) (hl : it.list = none) (hsk : it.skip = none) (len : Nat)
    (ha : AttrAt base.recordData it.raw.start len)
    (hst : ListStored ntfs img base it.raw.start len es)
    (hty : ∀ e ∈ es, ∃ t : AttrType, e.ty = t.code)
    (hg : Groups base.number (KindOf ntfs img mftEs) es gs) (d : Dev) (hd : d.Ok img)
    (hraw : (∃ len', AttrAt base.recordData (it.raw.start + len) len' ∧
        field base.recordData (it.raw.start + len) 4 ≠ 0x20) ∨
      ∃ r, EndResult base (it.raw.start + len) r) :
    ∃ it', it'.InList img (KindOf ntfs img mftEs) base gs ∧ it'.raw.start = it.raw.start + len ∧
      Attrs.next (it, d) = Attrs.next (it', d) := by
  obtain ⟨hat, l, b, hh, henc, hopen⟩ := hst.opens hbn ha
  have hnext : it.raw.next = (some (.ok ⟨base, it.raw.start, none⟩),
      { it.raw with start := it.raw.start + len }) := by
    rcases AttrsRaw.next_cases it.raw with ⟨e1, _⟩ | ⟨len', e1, e2⟩ | ⟨_, e2, _⟩
    · rw [hfile] at e1
      exact absurd (e1 (by have := ha.header; have := ha.inside; omega)) ha.ty
    · rw [hfile] at e1 e2
      have := ha.length; have := e1.length
      have : len' = len := by omega
      subst this
      rw [e2, ← hfile]
    · rw [hfile] at e2; exact absurd ha (e2 len)
  obtain ⟨it', hit'⟩ : ∃ it' : Attrs, it' =
    { it with raw := { it.raw with start := it.raw.start + len }, list := some l } := ⟨_, rfl⟩
  have hin : it'.InList img (KindOf ntfs img mftEs) base gs := by
    subst hit'
    exact ⟨hfile, l, b, [], es, rfl, hh, henc, hty, by simp, .inl hsk, hg⟩
  have hstart : it'.raw.start = it.raw.start + len := by subst hit'; rfl
  refine ⟨it', hin, hstart, ?_⟩
  have hlen : base.recordData.length ≠ 0 := by have := ha.header; have := ha.inside; omega
  rw [next_eq, next_eq]
  dsimp only
  rw [hfile, hin.file]
  obtain ⟨m, hmm⟩ : ∃ m, base.recordData.length = m + 1 := ⟨base.recordData.length - 1, by omega⟩
  rw [hmm, ← nextLoop_list hm base hbn gs it' hin d hd (by rw [hstart]; exact hraw) m (m + 1)]
  have hnl : nextFromList (it, d) = (.ok none, (it, d)) := by
    unfold nextFromList
    dsimp only
    rw [hl]
  conv => lhs; rw [nextLoop, StM.bind_of_ok hnl]
  dsimp only
  rw [hnext]
  dsimp only
  rw [hat]
  dsimp only
  rw [hopen]
  dsimp only
  rw [hit']

theorem Attrs.calls_open (hm : MftStored ntfs img mft mftEs mpre moff mlen mstart) (base : NFile)
    (hbn : base.ntfs = ntfs) (es : List LEntry) (gs : List (LEntry × List LEntry)) (it : Attrs)
    (hfile : it.raw.file = base) (hl : it.list = none) (hsk : it.skip = none) (len : Nat)
    (ha : AttrAt base.recordData it.raw.start len)
    (hst : ListStored ntfs img base it.raw.start len es)
    (hty : ∀ e ∈ es, ∃ t : AttrType, e.ty = t.code)
    (hg : Groups base.number (KindOf ntfs img mftEs) es gs) (d : Dev) (hd : d.Ok img)
    (hraw : (∃ len', AttrAt base.recordData (it.raw.start + len) len' ∧
        field base.recordData (it.raw.start + len) 4 ≠ 0x20) ∨
      ∃ r, EndResult base (it.raw.start + len) r) :
    ∃ it', it'.InList img (KindOf ntfs img mftEs) base gs ∧ it'.raw.start = it.raw.start + len ∧
      ∀ n, Attrs.calls n (it, d) = Attrs.calls n (it', d) := by
  obtain ⟨it', h1, h2, h3⟩ := Attrs.next_open hm base hbn es gs it hfile hl hsk len ha hst hty hg d hd
    hraw
  refine ⟨it', h1, h2, ?_⟩
  intro n
  cases n with
  | zero => rfl
  | succ n => rw [Attrs.calls, Attrs.calls, h3]

theorem Spec.Chain.append {d : Bytes} {off : Nat} {a b : List Nat} {fin : Nat}
    (h : Chain d off (a ++ b) fin) : ∃ mid, Chain d off a mid ∧ Chain d mid b fin := by
  induction a generalizing off with
  | nil => exact ⟨off, .nil off, h⟩
  | cons x xs ih =>
    cases h with
    | cons h1 h2 =>
      obtain ⟨mid, i1, i2⟩ := ih h2
      exact ⟨mid, .cons h1 i1, i2⟩

/-- C23: in a record without an attribute list, the flattened iteration shows exactly the attributes
of the raw iteration (`offs`, see `C18_tiles`), in order, and then the same end or error. -/
theorem C23_no_list (f : NFile) (h : 32 ≤ f.recordData.length) (offs : List Nat) (fin : Nat)
    (hc : Chain f.recordData (field f.recordData 20 2) offs fin)
    (hty : ∀ o ∈ offs, field f.recordData o 4 ≠ 0x20) (r : Res (Option AttrItem))
    (he : EndResult f fin r) (d : Dev) (hd : d.NoFail) (k : Nat) :
    ∃ it, f.attributes = .ok it ∧
      Attrs.calls (offs.length + k) (it, d) = offs.map (ownItem f) ++ List.replicate k r := by
  have hit : f.attributes =
      .ok ⟨⟨f, field f.recordData 20 2, field f.recordData 24 4⟩, none, none⟩ := by
    unfold NFile.attributes; rw [NFile.attributesRaw_eq f h]; rfl
  refine ⟨_, hit, ?_⟩
  obtain ⟨it', d', q1, q2, q3, _, _, q4⟩ := Attrs.calls_raw (img := d.img) f offs _ fin hc hty k
    ⟨⟨f, field f.recordData 20 2, field f.recordData 24 4⟩, none, none⟩ rfl ⟨rfl, .inl rfl⟩ d ⟨rfl, hd⟩
  rw [q4, Attrs.calls_end f r k it' (by rw [q3]; exact he) q2 d' q1]

/-- C23: in a record with an attribute list (at `offL`, contents `es`), the flattened iteration shows
the attributes of the raw iteration in order, but instead of the list attribute the entries `gs` of
the list that are to be shown (`Groups`), each with the attribute that it leads to or the error
(`Shows`); and then the same end or error as the raw iteration. -/
theorem C23_with_list (hm : MftStored ntfs img mft mftEs mpre moff mlen mstart) (f : NFile)
    (hf : f.ntfs = ntfs) (h : 32 ≤ f.recordData.length) (offs1 offs2 : List Nat) (offL lenL fin : Nat)
    (hc : Chain f.recordData (field f.recordData 20 2) (offs1 ++ offL :: offs2) fin)
    (hty : ∀ o ∈ offs1 ++ offs2, field f.recordData o 4 ≠ 0x20)
    (hL : AttrAt f.recordData offL lenL) (es : List LEntry) (hst : ListStored ntfs img f offL lenL es)
    (hes : ∀ e ∈ es, ∃ t : AttrType, e.ty = t.code) (gs : List (LEntry × List LEntry))
    (hg : Groups f.number (KindOf ntfs img mftEs) es gs) (r : Res (Option AttrItem))
    (he : EndResult f fin r) (d : Dev) (hd : d.NoFail) (hi : d.img = img) (k : Nat) :
    ∃ it rs, f.attributes = .ok it ∧ Each (fun g r => Shows ntfs img mftEs f g.1 g.2 r) gs rs ∧
      Attrs.calls (offs1.length + (gs.length + (offs2.length + k))) (it, d) =
        offs1.map (ownItem f) ++ (rs ++ (offs2.map (ownItem f) ++ List.replicate k r)) := by
  have hit : f.attributes =
      .ok ⟨⟨f, field f.recordData 20 2, field f.recordData 24 4⟩, none, none⟩ := by
    unfold NFile.attributes; rw [NFile.attributesRaw_eq f h]; rfl
  obtain ⟨mid, hc1, hc2⟩ := hc.append
  cases hc2 with
  | @cons _ len _ _ ha hc2 =>
  have hlen : len = lenL := by have := ha.length; have := hL.length; omega
  subst hlen
  obtain ⟨it1, d1, q1, q2, q3, q4, q5, q6⟩ := Attrs.calls_raw f offs1 _ offL hc1
    (fun o ho => hty o (by simp [ho])) (gs.length + (offs2.length + k))
    ⟨⟨f, field f.recordData 20 2, field f.recordData 24 4⟩, none, none⟩ rfl ⟨rfl, .inl rfl⟩ d ⟨hi, hd⟩
  have hraw : (∃ len', AttrAt f.recordData (it1.raw.start + len) len' ∧
        field f.recordData (it1.raw.start + len) 4 ≠ 0x20) ∨
      ∃ r, EndResult f (it1.raw.start + len) r := by
    rw [q3]
    cases hc2 with
    | nil => exact .inr ⟨r, he⟩
    | cons h1 _ => exact .inl ⟨_, h1, hty _ (by simp)⟩
  obtain ⟨it2, p1, p2, p3⟩ := Attrs.calls_open hm f hf es gs it1 q2.1 (q4 rfl) q5 len
    (by rw [q3]; exact ha) (by rw [q3]; exact hst) hes hg d1 q1 hraw
  obtain ⟨rs, it3, d3, s1, s2, s3, s4, s5⟩ := Attrs.calls_list hm f hf gs (offs2.length + k) it2 p1 d1 q1
  obtain ⟨it4, d4, t1, t2, t3, _, _, t4⟩ := Attrs.calls_raw f offs2 _ fin hc2
    (fun o ho => hty o (by simp [ho])) k it3 (by rw [s3, p2, q3]) s2 d3 s1
  refine ⟨_, rs, hit, s4, ?_⟩
  rw [q6, p3, s5, t4, Attrs.calls_end f r k it4 (by rw [t3]; exact he) t2 d4 t1]

/-- C23: for every list of entries that lead to attributes or errors there is a sequence of
entries to be shown, so `C23_with_list` applies to all of them. -/
theorem C23_groups_exist (base : Nat) (K : LEntry → Kind → Prop) (es : List LEntry)
    (h : ∀ e ∈ es, e.record ≠ base → ∃ k, K e k) : ∃ gs, Groups base K es gs := by
  obtain ⟨n, hn⟩ : ∃ n, es.length ≤ n := ⟨_, Nat.le_refl _⟩
  induction n generalizing es with
  | zero =>
    cases es with
    | nil => exact ⟨[], .nil⟩
    | cons e es => simp at hn
  | succ n ih =>
    cases es with
    | nil => exact ⟨[], .nil⟩
    | cons e es =>
      have hn' : es.length ≤ n := by simpa using hn
      by_cases hr : e.record = base
      · obtain ⟨gs, hg⟩ := ih es (fun x hx => h x (by simp [hx])) hn'
        exact ⟨gs, .own e es gs hr hg⟩
      · obtain ⟨k, hk⟩ := h e (by simp) hr
        cases k with
        | resident =>
          obtain ⟨gs, hg⟩ := ih es (fun x hx => h x (by simp [hx])) hn'
          exact ⟨_, .resident e es gs hr hk hg⟩
        | fails =>
          obtain ⟨gs, hg⟩ := ih es (fun x hx => h x (by simp [hx])) hn'
          exact ⟨_, .fails e es gs hr hk hg⟩
        | split =>
          have hsp : ∀ l : List LEntry, ∃ conn rest, l = conn ++ rest ∧
              (∀ c ∈ conn, c.record = base ∨ c.Same e) ∧
              (∀ x, rest.head? = some x → x.record ≠ base ∧ ¬ x.Same e) := by
            intro l
            induction l with
            | nil => exact ⟨[], [], rfl, by simp, by simp⟩
            | cons c cs ihc =>
              obtain ⟨conn, rest, h1, h2, h3⟩ := ihc
              by_cases hc : c.record = base ∨ c.Same e
              · refine ⟨c :: conn, rest, by rw [h1]; rfl, ?_, h3⟩
                intro x hx
                rcases List.mem_cons.1 hx with rfl | hx
                · exact hc
                · exact h2 x hx
              · refine ⟨[], c :: cs, rfl, by simp, ?_⟩
                intro x hx
                injection hx with hx
                subst hx
                exact ⟨fun h => hc (.inl h), fun h => hc (.inr h)⟩
          obtain ⟨conn, rest, h1, h2, h3⟩ := hsp es
          obtain ⟨gs, hg⟩ := ih rest (fun x hx => h x (by rw [h1]; simp [hx])) (by
            have := congrArg List.length h1
            rw [List.length_append] at this
            omega)
          exact ⟨_, by rw [h1]; exact .split e conn rest gs hr hk h2 h3 hg⟩

/-- C23 with C03: if the entries of a shown group are those of a value split over the attributes
`parts`, the value of the attribute of this item is the whole value: every history of reads and seeks
is one on an in-memory file with the contents of all parts. -/
theorem C23_split_value (hm : MftStored ntfs img mft mftEs mpre moff mlen mstart) (base : NFile)
    {ty : AttrType} (p : Part) (ps : List Part) (inst : Nat)
    (hp : ∀ q ∈ p :: ps, q.Stored ntfs img mftEs inst ty) (rest : List LEntry)
    (hr : OtherValue inst ty rest) (h56 : 56 ≤ p.len) (i : AttrItem)
    (hs : Shows ntfs img mftEs base p.entry (ps.map Part.entry ++ rest) (.ok (some i)))
    (size : Nat) (has : field p.file.recordData (p.off + 48) 8 = size)
    (d : Dev) (hd : d.NoFail) (hi : d.img = img) (ops : List Op) (hops : ∀ op ∈ ops, op.InRange) :
    ∃ a v d', i.toAttribute = .ok a ∧ a.value d = (.ok (.list v), d') ∧ v.len = size ∧
      (v.run d' ops).1 = (Flat.run
        { content := (content ntfs.clusterSize img ((p :: ps).flatMap Part.es)).take size
          len := size
          pos := 0 } ops).1 := by
  have hps := hp p (by simp)
  rcases hs with ⟨i', file, h1, h2, h3, h4, h5, h6⟩ | ⟨x, h1, _⟩
  case inr => cases h1
  injection h1 with h1
  injection h1 with h1
  subst h1
  obtain ⟨_, ⟨a0, ha1, ha2, ha3⟩, ⟨pre, len, hc, hat, hpre⟩, hty, hinst⟩ := h4
  obtain ⟨a0', hb1, hb2, hb3⟩ := hps.record
  have : a0' = a0 := by
    have e : p.entry.record = p.number := rfl
    rw [e, hb1] at ha1
    injection ha1
  subst this
  have hfile : file = p.file := by
    have e : p.entry.record = p.number := rfl
    rw [e, hb3] at ha3
    injection ha3 with ha3
    exact ha3.symm
  subst hfile
  obtain ⟨_, r, _, hfr, h32, _⟩ := (NFile.ofBytes_ok_iff _ _ _ _ _).1 hb3
  have hl32 : 32 ≤ p.file.recordData.length := by rw [hfr]; exact h32
  have hnt : p.file.ntfs = ntfs := by rw [hfr]
  -- both offsets are the first attribute with this type and instance
  have hoff : i.offset = p.off := by
    have g1 := (C22_first_match p.file hl32 ty none (some inst) _).2 ⟨p.pre, p.off, hps.chain,
      ⟨p.len, hps.attr⟩, rfl, ⟨hps.attrTy, by intro j hj; cases hj; exact hps.attrInst, by simp⟩,
      hps.first⟩
    rw [hps.entryTy] at hty hpre
    rw [hps.entryInst] at hinst hpre
    have g2 := (C22_first_match p.file hl32 ty none (some inst) _).2 ⟨pre, i.offset, hc,
      ⟨len, hat⟩, rfl, ⟨hty, by intro j hj; cases hj; exact hinst, by simp⟩, hpre⟩
    rw [g1] at g2
    injection g2 with g2
    injection g2 with _ g2
    exact g2.symm
  rw [hoff] at h6
  obtain ⟨l, b, hl, hh, henc⟩ := h6 hps.nonRes
  have hlen := hps.attr.length
  have hin := hps.attr.inside
  have hmin := hps.attr.header
  have hnew : i.toAttribute = .ok ⟨p.file, p.off, some l⟩ := by
    unfold AttrItem.toAttribute
    rw [h3]
    dsimp only
    rw [hoff, hl]
    refine Attr.new_ok_iff.2 ⟨rfl, ?_, ?_, ?_⟩
    · unfold Attr.HeaderIn; simp only [Attr.recordData]; omega
    · simp only [Attr.recordData]; omega
    · simp only [Attr.recordData]; omega
  obtain ⟨v, d', g1, g2, g3, _⟩ := C03_flat_file hm (p :: ps) (by simp) hp rest hr b henc l hh
    ⟨p.file, p.off, some l⟩ rfl hnt (by simp only [Attr.recordData]; omega) hps.nonRes hps.attrInst
    hps.attrTy size has d hd hi ops hops
  exact ⟨_, v, d', hnew, g1, g2, g3⟩

end

/-- An entry leads to at most one attribute. -/
theorem Loads.unique {ntfs : Ntfs} {img : Bytes} {mftEs : List Extent} {e : LEntry} {t : AttrType}
    (ht : e.ty = t.code) {f f' : NFile} {off off' : Nat} (h : Loads ntfs img mftEs e f off)
    (h' : Loads ntfs img mftEs e f' off') : f = f' ∧ off = off' := by
  obtain ⟨_, ⟨a, ha1, _, ha3⟩, ⟨pre, len, hc, hat, hp⟩, hty, hinst⟩ := h
  obtain ⟨_, ⟨a', hb1, _, hb3⟩, ⟨pre', len', hc', hat', hp'⟩, hty', hinst'⟩ := h'
  rw [ha1] at hb1
  injection hb1 with hb1
  subst hb1
  rw [ha3] at hb3
  injection hb3 with hb3
  subst hb3
  obtain ⟨_, r, _, hfr, h32, _⟩ := (NFile.ofBytes_ok_iff _ _ _ _ _).1 ha3
  have hl32 : 32 ≤ f.recordData.length := by rw [hfr]; exact h32
  rw [ht] at hp hty hp' hty'
  have g1 := (C22_first_match f hl32 t none (some e.inst) _).2 ⟨pre, off, hc,
    ⟨len, hat⟩, rfl, ⟨hty, by intro j hj; cases hj; exact hinst, by simp⟩, hp⟩
  have g2 := (C22_first_match f hl32 t none (some e.inst) _).2 ⟨pre', off', hc',
    ⟨len', hat'⟩, rfl, ⟨hty', by intro j hj; cases hj; exact hinst', by simp⟩, hp'⟩
  rw [g1] at g2
  injection g2 with g2
  injection g2 with _ g2
  exact ⟨rfl, g2⟩

/-- An entry that leads to an attribute does not lead to an error. -/
theorem Loads.not_fails {ntfs : Ntfs} {img : Bytes} {mftEs : List Extent} {e : LEntry} {f : NFile}
    {off : Nat} (h : Loads ntfs img mftEs e f off) {x : Err} : ¬ LoadFails ntfs img mftEs e x := by
  intro hx
  obtain ⟨hlt, ⟨a, ha1, ha2, ha3⟩, ⟨pre, len, hc, hat, hp⟩, hty, hinst⟩ := h
  cases hx with
  | tooBig h1 => omega
  | outside h1 h2 => rw [ha1] at h2; cases h2
  | image a' h1 h2 h3 =>
    rw [ha1] at h2
    injection h2 with h2
    omega
  | record a' _ h1 h2 h3 h4 =>
    rw [ha1] at h2
    injection h2 with h2
    subst h2
    rw [ha3] at h4
    cases h4
  | noAttribute a' file t offs fin h1 h2 h3 h4 h5 h6 h7 h8 =>
    rw [ha1] at h2
    injection h2 with h2
    subst h2
    rw [ha3] at h4
    injection h4 with h4
    subst h4
    obtain ⟨_, r, _, hfr, h32, _⟩ := (NFile.ofBytes_ok_iff _ _ _ _ _).1 ha3
    have hl32 : 32 ≤ f.recordData.length := by rw [hfr]; exact h32
    rw [h5] at hp hty h8
    have g1 := (C22_first_match f hl32 t none (some e.inst) _).2 ⟨pre, off, hc,
      ⟨len, hat⟩, rfl, ⟨hty, by intro j hj; cases hj; exact hinst, by simp⟩, hp⟩
    have g2 := (C22_not_found_iff f hl32 t none (some e.inst) f.position t).2
      ⟨rfl, rfl, offs, fin, h6, h7, h8⟩
    rw [g1] at g2
    cases g2

/-- An image with clusters of 64 bytes and records of 128 bytes: the MFT is clusters 1-8. Record 3 has
an attribute list (in cluster 9) with two named streams `a` in record 1 and `b` in record 2. Both are
the first attribute of their record and have instance number 0. -/
def exFlatImage : Bytes :=
  List.replicate 64 0 ++
  [70, 73, 76, 69, 48, 0, 1, 0, 0, 0, 0, 0, 0, 0, 0, 0,
   1, 0, 1, 0, 56, 0, 1, 0, 128, 0, 0, 0, 128, 0, 0, 0,
   0, 0, 0, 0, 0, 0, 0, 0, 3, 0, 0, 0, 0, 0, 0, 0,
   0, 0, 0, 0, 0, 0, 0, 0, 128, 0, 0, 0, 72, 0, 0, 0,
   1, 0, 0, 0, 0, 0, 1, 0, 0, 0, 0, 0, 0, 0, 0, 0,
   3, 0, 0, 0, 0, 0, 0, 0, 64, 0, 0, 0, 0, 0, 0, 0,
   0, 1, 0, 0, 0, 0, 0, 0, 128, 0, 0, 0, 0, 0, 0, 0,
   0, 0, 0, 0, 0, 0, 0, 0, 17, 8, 1, 0, 0, 0, 0, 0] ++
  [70, 73, 76, 69, 48, 0, 1, 0, 0, 0, 0, 0, 0, 0, 0, 0,
   1, 0, 1, 0, 56, 0, 1, 0, 128, 0, 0, 0, 128, 0, 0, 0,
   0, 0, 0, 0, 0, 0, 0, 0, 3, 0, 0, 0, 0, 0, 0, 0,
   0, 0, 0, 0, 0, 0, 0, 0, 128, 0, 0, 0, 72, 0, 0, 0,
   1, 1, 64, 0, 0, 0, 0, 0, 0, 0, 0, 0, 0, 0, 0, 0,
   3, 0, 0, 0, 0, 0, 0, 0, 66, 0, 0, 0, 0, 0, 0, 0,
   0, 1, 0, 0, 0, 0, 0, 0, 64, 0, 0, 0, 0, 0, 0, 0,
   0, 0, 0, 0, 0, 0, 0, 0, 97, 0, 17, 1, 10, 0, 0, 0] ++
  [70, 73, 76, 69, 48, 0, 1, 0, 0, 0, 0, 0, 0, 0, 0, 0,
   1, 0, 1, 0, 56, 0, 1, 0, 128, 0, 0, 0, 128, 0, 0, 0,
   0, 0, 0, 0, 0, 0, 0, 0, 3, 0, 0, 0, 0, 0, 0, 0,
   0, 0, 0, 0, 0, 0, 0, 0, 128, 0, 0, 0, 72, 0, 0, 0,
   1, 1, 64, 0, 0, 0, 0, 0, 0, 0, 0, 0, 0, 0, 0, 0,
   3, 0, 0, 0, 0, 0, 0, 0, 66, 0, 0, 0, 0, 0, 0, 0,
   0, 1, 0, 0, 0, 0, 0, 0, 64, 0, 0, 0, 0, 0, 0, 0,
   0, 0, 0, 0, 0, 0, 0, 0, 98, 0, 17, 1, 11, 0, 0, 0] ++
  [70, 73, 76, 69, 48, 0, 1, 0, 0, 0, 0, 0, 0, 0, 0, 0,
   1, 0, 1, 0, 56, 0, 1, 0, 128, 0, 0, 0, 128, 0, 0, 0,
   0, 0, 0, 0, 0, 0, 0, 0, 3, 0, 0, 0, 0, 0, 0, 0,
   0, 0, 0, 0, 0, 0, 0, 0, 32, 0, 0, 0, 72, 0, 0, 0,
   1, 0, 0, 0, 0, 0, 1, 0, 0, 0, 0, 0, 0, 0, 0, 0,
   3, 0, 0, 0, 0, 0, 0, 0, 64, 0, 0, 0, 0, 0, 0, 0,
   0, 1, 0, 0, 0, 0, 0, 0, 56, 0, 0, 0, 0, 0, 0, 0,
   0, 0, 0, 0, 0, 0, 0, 0, 17, 1, 9, 0, 0, 0, 0, 0] ++
  [128, 0, 0, 0, 28, 0, 1, 26, 0, 0, 0, 0, 0, 0, 0, 0,
   1, 0, 0, 0, 0, 0, 1, 0, 0, 0, 97, 0, 128, 0, 0, 0,
   28, 0, 1, 26, 0, 0, 0, 0, 0, 0, 0, 0, 2, 0, 0, 0,
   0, 0, 1, 0, 0, 0, 98, 0] ++
  List.replicate 8 0 ++ List.replicate 64 0xAA ++ List.replicate 64 0xBB

/-- The volume of `exFlatImage`. -/
def exFlatNtfs : Ntfs :=
  { clusterSize := 64, sectorSize := 64, size := 768, mftPosition := some 64,
    fileRecordSize := 128, serialNumber := 0, upcaseTable := none }

/-- A record of `exFlatImage`. -/
def exFlatFile (n : Nat) : NFile :=
  ⟨exFlatNtfs, ⟨(exFlatImage.drop (64 + 128 * n)).take 128, some (64 + 128 * n)⟩, n⟩

/-- The entries of the list. -/
def exFlatEntry (n : Nat) (c : Nat) : LEntry := ⟨0x80, 0, n + 2 ^ 48, 0, [c]⟩

set_option maxRecDepth 20000 in
theorem exFlatMft : MftStored exFlatNtfs exFlatImage (exFlatFile 0) [⟨8, some 1⟩] [] 56 72 64 :=
  { mftPos := ⟨64, rfl, by decide, by decide⟩
    sizePos := by decide
    chain := .nil 56
    attr := ⟨by decide, by decide, by decide, by decide⟩
    first := by simp
    ty := by decide
    nonRes := by decide
    header := by decide
    runsAt := by decide
    runsIn := by decide
    runs := {
      clusterPos := by decide
      enc := by
        have hb : List.take (72 - 64) (List.drop (56 + 64) (exFlatFile 0).recordData) =
            [0x11, 8, 1, 0, 0, 0, 0, 0] := by decide
        rw [hb]
        refine .run 0 1 1 _ _ _ ?_ (.terminated _ _)
        simp [WidthsOk, FitsSigned]
      rep := by simp [Representable, exFlatNtfs]
      nonZero := by simp [NonZero]
      inImage := by
        intro e he l hl
        have : exFlatImage.length = 768 := by decide
        rw [this]
        simp only [List.mem_cons, List.not_mem_nil, or_false] at he
        subst he
        injection hl with hl; subst hl; decide
      imgLt := by decide } }

set_option maxRecDepth 20000 in
theorem exFlatList : ListStored exFlatNtfs exFlatImage (exFlatFile 3) 56 72
    [exFlatEntry 1 97, exFlatEntry 2 98] := by
  refine .nonResident 64 56 [⟨1, some 9⟩] (by decide) (by decide) (by decide) (by decide) (by decide)
    ⟨by decide, ?_, by simp [Representable, exFlatNtfs], by simp [NonZero], ?_, by decide⟩ (by decide)
    (by decide) ?_
  · have hb : List.take (72 - 64) (List.drop (56 + 64) (exFlatFile 3).recordData) =
        [0x11, 1, 9, 0, 0, 0, 0, 0] := by decide
    rw [hb]
    refine .run 0 1 1 _ _ _ ?_ (.terminated _ _)
    simp [WidthsOk, FitsSigned]
  · intro e he l hl
    have : exFlatImage.length = 768 := by decide
    rw [this]
    simp only [List.mem_cons, List.not_mem_nil, or_false] at he
    subst he
    injection hl with hl; subst hl; decide
  · have h2 := ListEncodes.cons (exFlatEntry 2 98) [] [] []
      ⟨by decide, by decide, by decide, by decide, by decide, by decide⟩ (by decide) .nil
    have h1 := ListEncodes.cons (exFlatEntry 1 97) [] _ _
      ⟨by decide, by decide, by decide, by decide, by decide, by decide⟩ (by decide) h2
    have hb : (exFlatEntry 1 97).encode [] ++ ((exFlatEntry 2 98).encode [] ++ []) =
        (content exFlatNtfs.clusterSize exFlatImage [⟨1, some 9⟩]).take 56 := by decide
    rw [hb] at h1
    exact h1

set_option maxRecDepth 20000 in
theorem exFlatLoads : Loads exFlatNtfs exFlatImage [⟨8, some 1⟩] (exFlatEntry 1 97) (exFlatFile 1) 56 ∧
    Loads exFlatNtfs exFlatImage [⟨8, some 1⟩] (exFlatEntry 2 98) (exFlatFile 2) 56 := by
  refine ⟨⟨by decide, ⟨192, by decide, by decide, by decide⟩, ⟨[], 72, .nil 56,
      ⟨by decide, by decide, by decide, by decide⟩, by simp⟩, by decide, by decide⟩,
    ⟨by decide, ⟨320, by decide, by decide, by decide⟩, ⟨[], 72, .nil 56,
      ⟨by decide, by decide, by decide, by decide⟩, by simp⟩, by decide, by decide⟩⟩

set_option maxRecDepth 20000 in
/-- The hypotheses of `C23_with_list` can be met; here the two entries form one group. -/
theorem exFlatGroups : Groups (exFlatFile 3).number (KindOf exFlatNtfs exFlatImage [⟨8, some 1⟩])
    [exFlatEntry 1 97, exFlatEntry 2 98] [(exFlatEntry 1 97, [exFlatEntry 2 98])] :=
  .split (exFlatEntry 1 97) [exFlatEntry 2 98] [] [] (by decide)
    ⟨_, _, exFlatLoads.1, by decide⟩
    (by
      intro c hc
      simp only [List.mem_cons, List.not_mem_nil, or_false] at hc
      subst hc
      exact .inr ⟨rfl, rfl⟩)
    (by simp) .nil

set_option maxRecDepth 20000 in
theorem exFlatChain : Chain (exFlatFile 3).recordData (field (exFlatFile 3).recordData 20 2)
    ([] ++ 56 :: []) 128 ∧ AttrAt (exFlatFile 3).recordData 56 72 ∧
    EndResult (exFlatFile 3) 128 (.ok none) ∧ 32 ≤ (exFlatFile 3).recordData.length ∧
    NFile.ofBytes exFlatNtfs ((exFlatImage.drop 448).take 128) 448 3 = .ok (exFlatFile 3) := by
  have h : AttrAt (exFlatFile 3).recordData 56 72 := ⟨by decide, by decide, by decide, by decide⟩
  exact ⟨.cons h (.nil 128), h, .inl ⟨fun h => absurd h (by decide), rfl⟩, by decide, by decide⟩

set_option maxRecDepth 20000 in
/-- C50 fails: the attribute list of record 3 names two attributes, a stream called `a` in record 1
and a stream called `b` in record 2, both intact. The flattened iteration shows only `a` and then
ends, because it takes all adjacent entries with equal type and instance number for parts of one
value, although instance numbers are only unique within one file record. -/
theorem C50_negation :
    ∃ (ntfs : Ntfs) (img : Bytes) (mftEs : List Extent) (f fa fb : NFile) (ea eb : LEntry) (off : Nat),
      (∃ mft pre moff mlen mstart, MftStored ntfs img mft mftEs pre moff mlen mstart) ∧
      ListStored ntfs img f 56 72 [ea, eb] ∧
      Loads ntfs img mftEs ea fa off ∧ NameIs fa.recordData off [97] ∧ ea.name = [97] ∧
      Loads ntfs img mftEs eb fb off ∧ NameIs fb.recordData off [98] ∧ eb.name = [98] ∧
      ∀ (d : Dev), d.NoFail → d.img = img → ∀ k, ∃ it i, f.attributes = .ok it ∧
        Attrs.calls (1 + k) (it, d) = .ok (some i) :: List.replicate k (.ok none) ∧
        i.valueFile = some fa ∧ i.offset = off := by
  refine ⟨exFlatNtfs, exFlatImage, [⟨8, some 1⟩], exFlatFile 3, exFlatFile 1, exFlatFile 2,
    exFlatEntry 1 97, exFlatEntry 2 98, 56, ⟨_, _, _, _, _, exFlatMft⟩, exFlatList, exFlatLoads.1,
    ⟨by decide, by decide⟩, rfl, exFlatLoads.2, ⟨by decide, by decide⟩, rfl, ?_⟩
  intro d hd hi k
  obtain ⟨h1, h2, h3, h4, _⟩ := exFlatChain
  obtain ⟨it, rs, q1, q2, q3⟩ := C23_with_list exFlatMft (exFlatFile 3) rfl h4 [] [] 56 72 128 h1
    (by simp) h2 _ exFlatList
    (by
      intro e he
      simp only [List.mem_cons, List.not_mem_nil, or_false] at he
      rcases he with rfl | rfl <;> exact ⟨.data, rfl⟩)
    _ exFlatGroups (.ok none) h3 d hd hi k
  cases q2 with
  | cons hs ht =>
    cases ht with
    | nil =>
      rcases hs with ⟨i, file, rfl, p2, p3, p4, _⟩ | ⟨x, rfl, p2⟩
      · refine ⟨it, i, q1, ?_, ?_⟩
        · simpa using q3
        · obtain ⟨u1, u2⟩ := Loads.unique (t := .data) rfl p4 exFlatLoads.1
          exact ⟨by rw [p3, u1], u2⟩
      · exact absurd p2 exFlatLoads.1.not_fails

/-! ### The other theorems of this file on concrete files -/

/-- A record of two attributes and no list. -/
example := C23_no_list ⟨exNtfs, ⟨exRecord 112, some 512⟩, 7⟩ (by decide) [56, 80] 104
  (.cons (len := 24) ⟨by decide, by decide, by decide, by decide⟩
    (.cons (len := 24) ⟨by decide, by decide, by decide, by decide⟩ (.nil 104)))
  (by decide) (.ok none) (.inl ⟨by intro _; decide, rfl⟩) ⟨[], 0, [.chunk 1]⟩ (by simp [Dev.NoFail]) 3

example : ∃ gs, Groups (exFlatFile 3).number (KindOf exFlatNtfs exFlatImage [⟨8, some 1⟩])
    [exFlatEntry 1 97, exFlatEntry 2 98] gs :=
  C23_groups_exist _ _ _ (by
    intro e he _
    simp only [List.mem_cons, List.not_mem_nil, or_false] at he
    rcases he with rfl | rfl
    · exact ⟨.split, _, _, exFlatLoads.1, by decide⟩
    · exact ⟨.split, _, _, exFlatLoads.2, by decide⟩)

set_option maxRecDepth 20000 in
/-- The value in two parts of C03, as the item that the list shows for its first entry. -/
example : ∃ (i : AttrItem) (a : Attr) (v : ALVal) (d' : Dev), i.toAttribute = .ok a ∧
    a.value ⟨exPartsImage, 0, [.chunk 1]⟩ = (.ok (.list v), d') ∧ v.len = 100 := by
  obtain ⟨h1, h2⟩ := exPart_stored
  have e2 := ListEncodes.cons (exPart 320 2 9).entry [] [] []
    ⟨by decide, by decide, by decide, by decide, by decide, by decide⟩ (by decide) .nil
  have e1 := ListEncodes.cons (exPart 192 1 7).entry [] _ _
    ⟨by decide, by decide, by decide, by decide, by decide, by decide⟩ (by decide) e2
  obtain ⟨a, v, d', g1, g2, g3, _⟩ := C23_split_value exPartsStored (exPartsFile 64 0) (exPart 192 1 7) [exPart 320 2 9] 5
    (by intro q hq
        simp only [List.mem_cons, List.not_mem_nil, or_false] at hq
        rcases hq with rfl | rfl
        · exact h1
        · exact h2)
    [] (by rintro e ⟨⟩) (by decide) ⟨exPartsFile 64 0, some (exPartsFile 192 1), 56, some (.resident _ none)⟩
    (.inl ⟨_, _, rfl, rfl, rfl, ⟨h1.numberLt, h1.record, ⟨_, _, h1.chain, h1.attr, h1.first⟩, h1.attrTy, h1.attrInst⟩,
      fun h => absurd h (by decide), fun _ => ⟨_, _, rfl, rfl, e1⟩⟩)
    100 (by decide) ⟨exPartsImage, 0, [.chunk 1]⟩ (by simp [Dev.NoFail]) rfl [] (by simp)
  exact ⟨_, a, v, d', g1, g2, g3⟩

end NT
