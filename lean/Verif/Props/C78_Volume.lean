import Verif.Lemmas.LocalShell
import Verif.Props.C78_Local

/-!
C78, continued: everything that is done with a volume depends only on the places that the volume uses. These are
the record of the MFT, the records that the MFT leads to, and the clusters of the attributes of these records.
-/

namespace NT

open Spec

/-! ### The places that a volume uses -/

/-- The places that the volume `n` over the bytes `img` uses. -/
def Spec.Used (n : Ntfs) (img : Bytes) (a : Nat) : Prop := ∀ S, Covers n img S → S a

/-- Every volume has these places, and nothing else is needed. -/
theorem Spec.Used.covers (n : Ntfs) (img : Bytes) : Covers n img (Used n img) where
  mft := fun p hp i hi S hS => hS.mft p hp i hi
  records := fun p hp d mft d' hd hm a v ha hv number hn m v' q h1 h2 i hi S hS =>
    hS.records p hp d mft d' hd hm a v ha hv number hn m v' q h1 h2 i hi
  files := fun number d f d' hd hf => by
    refine ⟨(C17_sound n number d d' f hf).2.1, fun a ha ho data p h r hr q hq i hi S hS => ?_⟩
    exact (hS.files number d f d' hd hf).attrs a ha ho data p h r hr q hq i hi

/-- A set that covers the volume: the record of the MFT, the records, and the clusters of their attributes. -/
theorem Spec.Covers.ofStored {n : Ntfs} {img : Bytes} {mft : NFile} {es : List Extent} {pre : List Nat} {off len start : Nat}
    (h : MftStored n img mft es pre off len start) {S : Nat → Prop}
    (hrec : ∀ number a, RecordPlaces n es number a → S a)
    (hfile : ∀ number q f, addressOf n.clusterSize es (number * n.fileRecordSize) = some q →
      NFile.ofBytes n ((img.drop q).take n.fileRecordSize) q number = .ok f → FileIn n S f) : Covers n img S where
  mft := fun p hp i hi => hrec 0 _ (.inl ⟨p, hp, Nat.le_add_right _ _, Nat.add_lt_add_left hi _⟩)
  records := by
    intro p hp d1 f d1' hd1 hf a v ha hv number hlt m v' q hq1 hq2 i hi
    obtain ⟨p', hp', hpin, hmft⟩ := h.mftPos
    rw [hp] at hp'
    cases hp'
    have hb := NFile.new_bytes hf
    rw [hd1, hmft] at hb
    cases hb
    obtain ⟨h1, w, h2, h3⟩ := h.opens
    rw [h1] at ha
    cases ha
    rw [h2] at hv
    cases hv
    obtain ⟨v1, h4, h5⟩ := h3 (number * n.fileRecordSize) hlt
    dsimp only [SVal.seek] at hq1
    rw [h4] at hq1
    cases hq1
    exact hrec number _ (.inr ⟨q, h5.symm.trans hq2, Nat.le_add_right _ _, Nat.add_lt_add_left hi _⟩)
  files := by
    intro number d f d' hd hf
    unfold Ntfs.file at hf
    rw [StM.bind_ok_iff] at hf
    obtain ⟨t, d1, h1, hf⟩ := hf
    have hoff : t = number * n.fileRecordSize ∧ t < U64 ∧ d1 = d := by
      unfold checkedMulU64 at h1
      split at h1
      · cases h1; exact ⟨rfl, by assumption, rfl⟩
      · cases congrArg Prod.fst h1
    obtain ⟨rfl, hlt, rfl⟩ := hoff
    obtain ⟨p, hp, hpin, hmft⟩ := h.mftPos
    rw [hp] at hf
    dsimp only at hf
    rw [StM.bind_ok_iff] at hf
    obtain ⟨m, d2, h2, hf⟩ := hf
    have hi2 : d2.img = img := by
      obtain ⟨b, x, y, g1, _, g3, _⟩ := NFile.new_on (img := img) (S := fun _ => True) n (p := p) 0
        (fun _ _ => trivial) d1 d1 hd ⟨rfl, rfl, fun _ _ => rfl⟩
      rw [h2] at g1
      cases g1
      exact g3
    have hb := NFile.new_bytes h2
    rw [hd, hmft] at hb
    cases hb
    obtain ⟨k1, w, k2, k3⟩ := h.opens
    obtain ⟨v1, k4, k5⟩ := k3 (number * n.fileRecordSize) hlt
    rw [k1, StM.bind_of_ok (show (StM.lift (.ok _) : StM Dev Attr) d2 = (.ok _, d2) from rfl), k2,
      StM.bind_of_ok (show (StM.lift (.ok _) : StM Dev SVal) d2 = (.ok _, d2) from rfl)] at hf
    dsimp only [SVal.seek] at hf
    rw [k4] at hf
    dsimp only at hf
    cases hq : v1.dataPosition with
    | none =>
      rw [show (SVal.nonRes v1).dataPosition = v1.dataPosition from rfl, hq] at hf
      cases congrArg Prod.fst hf
    | some q =>
      rw [show (SVal.nonRes v1).dataPosition = v1.dataPosition from rfl, hq] at hf
      have := NFile.new_bytes hf
      rw [hi2] at this
      exact hfile number q f (k5.symm.trans hq) this

/-! ### Files -/

section Volume

variable {n : Ntfs} {img : Bytes} {S : Nat → Prop}

/-- C78: opening any file of the volume. -/
theorem C78_volume_file (hc : Covers n img S) (number : Nat) (d e : Dev) (hd : d.img = img) (hs : SameOn S d e) :
    (n.file number d).1 = (n.file number e).1 ∧ SameOn S (n.file number d).2 (n.file number e).2 :=
  (Ntfs.file_on hc number).same hd hs

/-- C78: the attributes of a file of the volume, those that an attribute list leads to included: any number of
calls of the iterator. -/
theorem C78_volume_attributes (hc : Covers n img S) (number : Nat) (d0 d1 : Dev) (f : NFile) (h0 : d0.img = img)
    (hf : n.file number d0 = (.ok f, d1)) (it : Attrs) (hit : f.attributes = .ok it) (k : Nat) (d e : Dev)
    (hd : d.img = img) (hs : SameOn S d e) : callsOf Attrs.next k (it, d) = callsOf Attrs.next k (it, e) :=
  (Attrs.next_on hc).calls k (NFile.attributes_in (hc.files number d0 f d1 h0 hf) hit) hd hs

/-- C78: the lookups in a file of the volume: a stream, an attribute, a name. -/
theorem C78_volume_lookup (hc : Covers n img S) (number : Nat) (d0 d1 : Dev) (f : NFile) (h0 : d0.img = img)
    (hf : n.file number d0 = (.ok f, d1)) (fuel : Nat) (d e : Dev) (hd : d.img = img) (hs : SameOn S d e) :
    (∀ asked, (f.dataItem asked fuel d).1 = (f.dataItem asked fuel e).1) ∧
    (∀ ty name, (f.findAttribute ty name fuel d).1 = (f.findAttribute ty name fuel e).1) ∧
    (∀ ns parent, (f.fileName ns parent fuel d).1 = (f.fileName ns parent fuel e).1) :=
  have hf' := hc.files number d0 f d1 h0 hf
  ⟨fun asked => ((NFile.dataItem_on hc hf' asked fuel).same hd hs).1,
    fun ty name => ((NFile.findAttribute_on hc hf' ty name fuel).same hd hs).1,
    fun ns parent => ((NFile.fileName_on hc hf' ns parent fuel).same hd hs).1⟩

/-! ### Values -/

/-- One operation on any value. -/
def Val.stepped (v : Val) (d : Dev) : Op → Out × Val × Dev
  | .read buf => ({ result := (v.read buf d).1, buf := (v.read buf d).2.2.1 }, (v.read buf d).2.1, (v.read buf d).2.2.2)
  | .seek s => ({ result := (v.seek s d).1, buf := [] }, (v.seek s d).2.1, (v.seek s d).2.2)

/-- The outcomes of a list of operations on any value. -/
def Val.outcomes (v : Val) (d : Dev) : List Op → List Out
  | [] => []
  | op :: ops => (v.stepped d op).1 :: (v.stepped d op).2.1.outcomes (v.stepped d op).2.2 ops

theorem Val.outcomes_same (hc : Covers n img S) (ops : List Op) {v : Val} (hv : AnyIn n S v) {d e : Dev}
    (hd : d.img = img) (hs : SameOn S d e) : v.outcomes d ops = v.outcomes e ops := by
  induction ops generalizing v d e with
  | nil => rfl
  | cons op ops ih =>
    cases op with
    | read buf =>
      obtain ⟨b, d', e', g1, g2, g3, g4, g5⟩ := Val.read_on hc hv buf d e hd hs
      dsimp only at g1 g2
      simp only [Val.outcomes, Val.stepped]
      rw [g1, g2]
      exact congrArg _ (ih g5 g3 g4)
    | seek s =>
      obtain ⟨b, d', e', g1, g2, g3, g4, g5⟩ := Val.seek_on hc hv s d e hd hs
      dsimp only at g1 g2
      simp only [Val.outcomes, Val.stepped]
      rw [g1, g2]
      exact congrArg _ (ih g5 g3 g4)

theorem Attr.value_same (hc : Covers n img S) {i : AttrItem} (hi : ItemIn n S i) {a : Attr} (ha : i.toAttribute = .ok a)
    {d e : Dev} (hd : d.img = img) (hs : SameOn S d e) : (a.value d).1 = (a.value e).1 ∧
    ∀ v, (a.value d).1 = .ok v → ∀ ops, v.outcomes (a.value d).2 ops = v.outcomes (a.value e).2 ops := by
  obtain ⟨b, d', e', k1, k2, k3, k4, k5⟩ := Attr.value_on hc (AttrItem.toAttribute_in hi a ha) d e hd hs
  rw [k1, k2]
  exact ⟨rfl, fun v hv ops => Val.outcomes_same hc ops (k5 v hv) k3 k4⟩

theorem OnS.calls_in {α σ : Type} {J : σ → Prop} {I : α → Prop} {next : StM (σ × Dev) α} (h : OnS img S J I next)
    (k : Nat) {s : σ} (hj : J s) {d : Dev} (hd : d.img = img) : ∀ x, .ok x ∈ callsOf next k (s, d) → I x := by
  induction k generalizing s d with
  | zero => intro x hx; cases hx
  | succ k ih =>
    obtain ⟨b, d', e', g1, _, g3, _, g5, g6⟩ := h s hj d d hd ⟨rfl, rfl, fun _ _ => rfl⟩
    dsimp only at g1
    intro x hx
    simp only [callsOf] at hx
    rw [g1] at hx
    rcases List.mem_cons.1 hx with hx | hx
    · exact g6 x hx.symm
    · exact ih g5 g3 x hx

/-- C78: whatever attribute the iterator over the attributes of a file shows, opening its value and doing
whatever with it. The value may be resident, in clusters, or in parts that an attribute list connects. -/
theorem C78_volume_value (hc : Covers n img S) (number : Nat) (d0 d1 : Dev) (f : NFile) (h0 : d0.img = img)
    (hf : n.file number d0 = (.ok f, d1)) (it : Attrs) (hit : f.attributes = .ok it) (k : Nat) (d2 : Dev)
    (h2 : d2.img = img) (i : AttrItem) (hi : .ok (some i) ∈ callsOf Attrs.next k (it, d2)) (a : Attr)
    (ha : i.toAttribute = .ok a) (d e : Dev) (hd : d.img = img) (hs : SameOn S d e) :
    (a.value d).1 = (a.value e).1 ∧
    ∀ v, (a.value d).1 = .ok v → ∀ ops, v.outcomes (a.value d).2 ops = v.outcomes (a.value e).2 ops :=
  Attr.value_same hc ((Attrs.next_on hc).calls_in k (NFile.attributes_in (hc.files number d0 f d1 h0 hf) hit) h2
    (some i) hi i rfl) ha hd hs

/-- C78: the same for the stream that `NtfsFile::data` finds. -/
theorem C78_volume_stream (hc : Covers n img S) (number : Nat) (d0 d1 : Dev) (f : NFile) (h0 : d0.img = img)
    (hf : n.file number d0 = (.ok f, d1)) (asked : List Nat) (fuel : Nat) (d2 d3 : Dev) (h2 : d2.img = img)
    (i : AttrItem) (hi : f.dataItem asked fuel d2 = (.ok (some i), d3)) (a : Attr) (ha : i.toAttribute = .ok a)
    (d e : Dev) (hd : d.img = img) (hs : SameOn S d e) :
    (a.value d).1 = (a.value e).1 ∧
    ∀ v, (a.value d).1 = .ok v → ∀ ops, v.outcomes (a.value d).2 ops = v.outcomes (a.value e).2 ops := by
  obtain ⟨b, x, y, g1, _, _, _, g5⟩ := NFile.dataItem_on hc (hc.files number d0 f d1 h0 hf) asked fuel d2 d2 h2
    ⟨rfl, rfl, fun _ _ => rfl⟩
  rw [hi] at g1
  cases g1
  exact Attr.value_same hc (g5 _ rfl i rfl) ha hd hs

/-! ### The volume -/

/-- C78: the information about the volume, its name, and the table for the comparison of names. -/
theorem C78_volume_info (hc : Covers n img S) (d e : Dev) (hd : d.img = img) (hs : SameOn S d e) :
    (n.volumeInfo d).1 = (n.volumeInfo e).1 ∧ (n.volumeName d).1 = (n.volumeName e).1 ∧
    ∀ fuel, (n.readUpcaseTable fuel d).1 = (n.readUpcaseTable fuel e).1 :=
  ⟨((Ntfs.volumeInfo_on hc).same hd hs).1, ((Ntfs.volumeName_on hc).same hd hs).1,
    fun fuel => ((Ntfs.readUpcaseTable_on hc fuel).same hd hs).1⟩

/-- C78: directories: opening the index of a file of the volume, all its entries, and the search for a name. -/
theorem C78_volume_directory (hc : Covers n img S) (number : Nat) (d0 d1 : Dev) (f : NFile) (h0 : d0.img = img)
    (hf : n.file number d0 = (.ok f, d1)) (fuel : Nat) (d e : Dev) (hd : d.img = img) (hs : SameOn S d e) :
    (f.directoryIndex fuel d).1 = (f.directoryIndex fuel e).1 ∧
    ∀ ix, (f.directoryIndex fuel d).1 = .ok ix →
      (∀ k, callsOf (IndexEntries.next ix fuel) k (.new ix, (f.directoryIndex fuel d).2) =
        callsOf (IndexEntries.next ix fuel) k (.new ix, (f.directoryIndex fuel e).2)) ∧
      ∀ name, (ix.findName n name fuel (f.directoryIndex fuel d).2).1 =
        (ix.findName n name fuel (f.directoryIndex fuel e).2).1 := by
  obtain ⟨b, d', e', k1, k2, k3, k4, k5⟩ := NFile.directoryIndex_on hc (hc.files number d0 f d1 h0 hf) fuel d e hd hs
  rw [k1, k2]
  refine ⟨rfl, fun ix hix => ?_⟩
  have hx := fun vcn => Index.subnode_on hc (k5 ix hix) vcn
  exact ⟨fun k => (IndexEntries.next_on hx fuel).calls k trivial k3 k4,
    fun name => ((Index.findName_on hx n name fuel).same k3 k4).1⟩

/-! ### The shell -/

/-- C78: a session of the shell: what is printed and what is saved, from whatever directory the session starts in. -/
theorem C78_volume_session (hc : Covers n img S) (s : Session) (hn : s.shell.ntfs = n)
    (hst : ∀ f ∈ s.shell.stack, ∃ number d0 d1, d0.img = img ∧ n.file number d0 = (.ok f, d1)) (fuel : Nat)
    (lines : List (Option (List Char))) (d e : Dev) (hd : d.img = img) (hs : SameOn S d e) :
    (Session.loop fuel lines s d).1 = (Session.loop fuel lines s e).1 ∧
    (Session.loop fuel lines s d).2.1 = (Session.loop fuel lines s e).2.1 ∧
    (Session.loop fuel lines s d).2.2.1 = (Session.loop fuel lines s e).2.2.1 := by
  have hin : ShellIn n S s.shell := ⟨hn, fun f hf => by
    obtain ⟨number, d0, d1, h1, h2⟩ := hst f hf
    exact hc.files number d0 f d1 h1 h2⟩
  obtain ⟨b, d', e', k1, k2, _⟩ := Session.loop_on hc fuel lines hin d e hd hs
  dsimp only at k1 k2
  rw [k1, k2]
  exact ⟨rfl, rfl, rfl⟩

end Volume

/-! ### An example -/

theorem Spec.Shows.next {it : AttrsRaw} {a : Attr} (h : Shows it a) :
    (∃ it', it.next = (some (.ok a), it')) ∨ Shows it.next.2 a := by
  cases h with
  | here h => exact .inl ⟨_, h⟩
  | later h => exact .inr h

/-- An iterator that does not get any further shows nothing. -/
theorem Spec.Shows.stuck {it : AttrsRaw} {a : Attr} (h : it.next = (none, it)) : ¬ Shows it a := by
  intro hs
  generalize hj : it = j at hs
  induction hs with
  | here e => subst hj; rw [h] at e; cases e
  | later _ ih => subst hj; rw [h] at ih; exact ih rfl

/-- The places that the example volume uses: its records from 64 to 447, and the clusters 7 and 9. The boot sector and
cluster 8 are not among them. -/
def exUsed (a : Nat) : Prop := 64 ≤ a ∧ a < 512 ∨ 576 ≤ a ∧ a < 640

set_option maxRecDepth 20000 in
theorem exParts_own (number : Nat) (hn : number < 3) (o : Nat) (h : Own (exPartsFile (64 + number * 128) number) o) :
    o = 56 := by
  obtain ⟨it, a, h1, h2, h3⟩ := h
  have key : ∀ k < 3, (exPartsFile (64 + k * 128) k).attributesRaw = .ok ⟨exPartsFile (64 + k * 128) k, 56, 128⟩ ∧
      (AttrsRaw.next ⟨exPartsFile (64 + k * 128) k, 56, 128⟩) =
        (some (.ok ⟨exPartsFile (64 + k * 128) k, 56, none⟩), ⟨exPartsFile (64 + k * 128) k, 128, 128⟩) ∧
      (AttrsRaw.next ⟨exPartsFile (64 + k * 128) k, 128, 128⟩) = (none, ⟨exPartsFile (64 + k * 128) k, 128, 128⟩) := by
    decide +kernel
  obtain ⟨k1, k2, k3⟩ := key number hn
  rw [k1] at h1
  cases h1
  rcases h2.next with ⟨it', e⟩ | e
  · rw [k2] at e
    cases e
    exact h3.symm
  · rw [k2] at e
    exact absurd e (Spec.Shows.stuck k3)

set_option maxRecDepth 20000 in
theorem exParts_runs : ∀ k < 3, Attr.nonResidentValueDataAndPosition ⟨exPartsFile (64 + k * 128) k, 56, none⟩ =
    .ok ([17, if k = 0 then 6 else 1, if k = 0 then 1 else if k = 1 then 7 else 9, 0, 0, 0, 0, 0, 0, 0, 0, 0],
      some (64 + k * 128 + 116)) := by
  decide +kernel

theorem exParts_address (number q : Nat) (h : addressOf 64 [⟨6, some 1⟩] (number * 128) = some q) :
    number < 3 ∧ q = 64 + number * 128 := by
  simp only [addressOf] at h
  split at h
  · cases h
    exact ⟨by omega, by show 1 * 64 + number * 128 = _; omega⟩
  · cases h

set_option maxRecDepth 20000 in
theorem exParts_file : ∀ k < 3, NFile.ofBytes exPartsNtfs ((exPartsImage.drop (64 + k * 128)).take 128) (64 + k * 128) k =
    .ok (exPartsFile (64 + k * 128) k) := by
  decide +kernel

/-- What `exUsed` says. -/
theorem exParts_covers : Covers exPartsNtfs exPartsImage exUsed := by
  refine Spec.Covers.ofStored exPartsStored ?_ ?_
  · rintro number a (⟨p, hp, g1, g2⟩ | ⟨q, hq, g1, g2⟩)
    · cases hp
      exact .inl ⟨g1, by change a < 64 + 128 at g2; omega⟩
    · obtain ⟨hn, rfl⟩ := exParts_address number q hq
      exact .inl ⟨by omega, by change a < 64 + number * 128 + 128 at g2; omega⟩
  · intro number q f hq hf
    obtain ⟨hn, rfl⟩ := exParts_address number q hq
    have := exParts_file number hn
    rw [show exPartsNtfs.fileRecordSize = 128 from rfl, this] at hf
    cases hf
    refine ⟨rfl, fun a ha ho data p h => ?_⟩
    have hr := exParts_runs number hn
    have h' : Attr.nonResidentValueDataAndPosition ⟨exPartsFile (64 + number * 128) number, 56, none⟩ = .ok (data, p) := by
      rw [← h]
      exact Attr.nonResident_same ha.symm (exParts_own number hn _ ho).symm
    rw [hr] at h'
    cases h'
    have hcase : number = 0 ∨ number = 1 ∨ number = 2 := by omega
    rcases hcase with rfl | rfl | rfl
    · refine RunsIn.ofEncoded (es := [⟨6, some 1⟩]) (by decide) (.run 0 1 1 _ _ _ (by simp [WidthsOk, FitsSigned])
        (.terminated _ _)) (by simp [Representable, exPartsNtfs]) (by simp [NonZero]) ?_
      rintro a ⟨x, hx, l, hl, g1, g2⟩
      simp only [List.mem_cons, List.not_mem_nil, or_false] at hx
      subst hx
      cases hl
      exact .inl ⟨g1, by change a < 1 * 64 + 6 * 64 at g2; omega⟩
    · refine RunsIn.ofEncoded (es := [⟨1, some 7⟩]) (by decide) (.run 0 1 1 _ _ _ (by simp [WidthsOk, FitsSigned])
        (.terminated _ _)) (by simp [Representable, exPartsNtfs]) (by simp [NonZero]) ?_
      rintro a ⟨x, hx, l, hl, g1, g2⟩
      simp only [List.mem_cons, List.not_mem_nil, or_false] at hx
      subst hx
      cases hl
      change 7 * 64 ≤ a at g1
      exact .inl ⟨by omega, by change a < 7 * 64 + 1 * 64 at g2; omega⟩
    · refine RunsIn.ofEncoded (es := [⟨1, some 9⟩]) (by decide) (.run 0 1 1 _ _ _ (by simp [WidthsOk, FitsSigned])
        (.terminated _ _)) (by simp [Representable, exPartsNtfs]) (by simp [NonZero]) ?_
      rintro a ⟨x, hx, l, hl, g1, g2⟩
      simp only [List.mem_cons, List.not_mem_nil, or_false] at hx
      subst hx
      cases hl
      exact .inr ⟨g1, by change a < 9 * 64 + 1 * 64 at g2; omega⟩

/-- The example volume with a damaged boot sector and anything in the unused cluster 8. -/
def exDamaged (boot junk : Bytes) : Bytes := boot ++ (exPartsImage.drop 64).take 448 ++ junk ++ exPartsImage.drop 576

set_option maxRecDepth 20000 in
theorem exDamaged_same (boot junk : Bytes) (hb : boot.length = 64) (hj : junk.length = 64) (sched : List Resp) :
    SameOn exUsed ⟨exPartsImage, 0, sched⟩ ⟨exDamaged boot junk, 0, sched⟩ := by
  have hl : exPartsImage.length = 640 := by decide +kernel
  refine ⟨rfl, rfl, fun a ha => ?_⟩
  show exPartsImage[a]? = (exDamaged boot junk)[a]?
  unfold exDamaged
  rcases ha with ⟨h1, h2⟩ | ⟨h1, h2⟩
  · rw [List.getElem?_append_left (by simp; omega), List.getElem?_append_left (by simp; omega),
      List.getElem?_append_right (by omega), List.getElem?_take_of_lt (by omega), List.getElem?_drop]
    congr 1
    omega
  · rw [List.getElem?_append_right (by simp; omega), List.getElem?_drop]
    congr 1
    simp
    omega

/-- The theorems apply: all files, their attributes and their streams are the same on the damaged volume. -/
example (boot junk : Bytes) (hb : boot.length = 64) (hj : junk.length = 64) (number : Nat) :=
  C78_volume_file exParts_covers number ⟨exPartsImage, 0, [.chunk 7]⟩ ⟨exDamaged boot junk, 0, [.chunk 7]⟩ rfl
    (exDamaged_same boot junk hb hj _)

/-- The attributes of file 1 and what is found in it. -/
example (boot junk : Bytes) (hb : boot.length = 64) (hj : junk.length = 64) (it : Attrs)
    (hit : (exPartsFile 192 1).attributes = .ok it) (k fuel : Nat) :=
  And.intro (C78_volume_attributes exParts_covers 1 _ _ _ rfl exPosFile it hit k _ _ rfl (exDamaged_same boot junk hb hj []))
    (C78_volume_lookup exParts_covers 1 _ _ _ rfl exPosFile fuel _ _ rfl (exDamaged_same boot junk hb hj []))

set_option maxRecDepth 20000 in
theorem exParts_first : (callsOf Attrs.next 1 (⟨⟨exPartsFile 192 1, 56, 128⟩, none, none⟩, ⟨exPartsImage, 0, []⟩)) =
    [.ok (some ⟨exPartsFile 192 1, none, 56, none⟩)] := by decide +kernel

set_option maxRecDepth 20000 in
theorem exParts_stream : (exPartsFile 192 1).dataItem [] 3 ⟨exPartsImage, 0, []⟩ =
    (.ok (some ⟨exPartsFile 192 1, none, 56, none⟩), ⟨exPartsImage, 0, []⟩) := by decide +kernel

/-- The stream of file 1, read in two pieces with a jump between them. -/
example (boot junk : Bytes) (hb : boot.length = 64) (hj : junk.length = 64) (v : Val) (hv :
    ((Attr.mk (exPartsFile 192 1) 56 none).value ⟨exPartsImage, 0, [.chunk 2]⟩).1 = .ok v) :=
  (C78_volume_stream exParts_covers 1 _ _ _ rfl exPosFile [] 3 _ _ rfl _ exParts_stream _ exPos_attr _ _ rfl
    (exDamaged_same boot junk hb hj [.chunk 2])).2 v hv [.read [0, 0, 0], .seek (.current 30), .read [0, 0]]

set_option maxRecDepth 20000 in
example (boot junk : Bytes) (hb : boot.length = 64) (hj : junk.length = 64) :=
  C78_volume_value exParts_covers 1 _ _ _ rfl exPosFile ⟨⟨exPartsFile 192 1, 56, 128⟩, none, none⟩ (by decide +kernel) 1
    ⟨exPartsImage, 0, []⟩ rfl ⟨exPartsFile 192 1, none, 56, none⟩ (by rw [exParts_first]; exact List.mem_cons_self) _
    exPos_attr _ _ rfl (exDamaged_same boot junk hb hj [.chunk 2])

set_option maxRecDepth 20000 in
/-- The value is there, and a damaged byte in a cluster that is used does show. -/
example : ∃ v, ((Attr.mk (exPartsFile 192 1) 56 none).value ⟨exPartsImage, 0, []⟩).1 = .ok v ∧
    (v.outcomes ⟨exPartsImage, 0, []⟩ [.read [0]]).map (·.buf) = [[0x77]] ∧
    (v.outcomes ⟨exPartsImage.take 448 ++ [0x78] ++ exPartsImage.drop 449, 0, []⟩ [.read [0]]).map (·.buf) = [[0x78]] := by
  refine ⟨_, rfl, ?_, ?_⟩ <;> decide +kernel

example (boot junk : Bytes) (hb : boot.length = 64) (hj : junk.length = 64) :=
  C78_volume_info exParts_covers _ _ rfl (exDamaged_same boot junk hb hj [.fail .interrupted])

example (boot junk : Bytes) (hb : boot.length = 64) (hj : junk.length = 64) (fuel : Nat) :=
  C78_volume_directory exParts_covers 1 _ _ _ rfl exPosFile fuel _ _ rfl (exDamaged_same boot junk hb hj [])

/-- A session on the damaged volume. -/
example (boot junk : Bytes) (hb : boot.length = 64) (hj : junk.length = 64) (host : Host) (fuel : Nat) :=
  C78_volume_session exParts_covers ⟨⟨[exPartsFile 192 1], [], exPartsNtfs⟩, host⟩ rfl
    (fun f hf => by
      simp only [List.mem_cons, List.not_mem_nil, or_false] at hf
      subst hf
      exact ⟨1, _, _, rfl, exPosFile⟩) fuel
    [some "fileinfo /2".toList, some "get /1".toList, some "fsinfo".toList] _ _ rfl
    (exDamaged_same boot junk hb hj [.chunk 9, .fail .interrupted])

end NT
