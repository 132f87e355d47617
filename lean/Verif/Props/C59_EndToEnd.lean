import Verif.Lemmas.ShellGet
import Verif.Props.C15_Boot
import Verif.Props.C32_UpcaseTable
import Verif.Props.C36_FileRef
import Verif.Props.C48_DirectoryIndex
import Verif.Props.C53_Copy
import Verif.Props.C56_BestName
import Verif.Props.C57_Navigate
import Verif.Lemmas.ExDisk

/-! C59: from the bytes of a volume to the bytes of a file, with the commands of the example shell. -/

namespace NT

open Spec

/-! ### What is stored -/

/-- The MFT of the view is stored in its image. -/
def HasMft (V : View) : Prop :=
  ∃ mft mpre moff mlen mstart, MftStored V.ntfs V.img mft V.mftEs mpre moff mlen mstart

/-- The file of the view, with the attributes `steps`, is a directory with the tree `t`, which is sorted by
the names in upper case. -/
structure DirOf (V : View) (steps : List Step) (t : Node) (tab : List Nat) : Prop where
  flat : ∃ r, Flattened V steps r
  room : 24 ≤ V.base.recordData.length
  flag : field V.base.recordData 22 2 / 2 % 2 = 1
  stored : DirStored V steps t
  sorted : DirSorted tab t.inorder

/-- The name `name` stands for the entry `e` of the directory and for no other. -/
structure Names (tab : List Nat) (t : Node) (name : List Nat) (e : Ent) : Prop where
  mem : e ∈ t.inorder
  upper : ∃ u, Upper tab name u ∧ UpperName tab e u
  only : ∀ e' ∈ t.inorder, (∃ u, Upper tab name u ∧ UpperName tab e' u) → e' = e

/-- The first data stream with the name `asked` (up to upper case) among the attributes `steps` of the
file has the nominal size `size` and the bytes `c`. -/
def StreamOf (V : View) (steps : List Step) (asked : List Nat) (c : Bytes) (size : Nat) : Prop :=
  ∃ pre s post file off, steps = pre ++ s :: post ∧
    (∀ p ∈ pre, ∃ f o, p.At V f o ∧ DataMiss V asked f o) ∧
    s.At V file off ∧ field file.recordData off 4 = 0x80 ∧
    (∃ nm, NameIs file.recordData off nm ∧ StreamMatch V.base.ntfs asked nm) ∧
    (∃ i, s.Result V (.ok (some i))) ∧
    ∀ i, s.Result V (.ok (some i)) → ∃ a, i.toAttribute = .ok a ∧ a.Opens V.img c size

/-- There is no such stream, and all attributes can be loaded and parsed. -/
def NoStreamOf (V : View) (steps : List Step) (r : Res (Option AttrItem)) (asked : List Nat) : Prop :=
  r = .ok none ∧ ∀ p ∈ steps, ∃ f o, p.At V f o ∧ DataMiss V asked f o

/-! ### Steps -/

theorem RecordOf.load {V : View} {number : Nat} (h : RecordOf V number) (hm : HasMft V) (d : Dev)
    (hd : d.Ok V.img) : ∃ d', V.ntfs.file number d = (.ok V.base, d') ∧ d'.Ok V.img := by
  obtain ⟨mft, mpre, moff, mlen, mstart, hm⟩ := hm
  exact h.file hm d hd

theorem utf16_units (s : List Char) : Units (utf16 s) := by
  induction s with
  | nil => intro c hc; cases hc
  | cons c s ih =>
    unfold utf16
    have hv : c.toNat < 0x110000 := by
      have h := c.valid
      unfold UInt32.isValidChar Nat.isValidChar at h
      show c.val.toNat < _
      omega
    split
    · intro x hx
      rcases List.mem_cons.1 hx with hx | hx
      · rw [hx]; show _ < 65536; omega
      · exact ih x hx
    · intro x hx
      rcases List.mem_cons.1 hx with hx | hx
      · rw [hx]; show _ < 65536; omega
      · rcases List.mem_cons.1 hx with hx | hx
        · rw [hx]; show _ < 65536; omega
        · exact ih x hx

/-- Opening the directory and looking up a name. -/
theorem DirOf.find {V : View} {steps : List Step} {t : Node} {tab : List Nat} (h : DirOf V steps t tab)
    {ntfs : Ntfs} (hn : ntfs.upcaseTable = some tab) (ht : TableOk tab) (name : List Nat) (hu : Units name)
    (fuel : Nat) (hf1 : steps.length < fuel) (hf2 : t.entries + t.nodes ≤ fuel) (d : Dev) (hd : d.Ok V.img) :
    ∃ ix d1 q d2, V.base.directoryIndex fuel d = (.ok ix, d1) ∧ ix.findName ntfs name fuel d1 = (q, d2) ∧
      d2.Ok V.img ∧
      ((∃ x e u, q = .ok (some x) ∧ x.Is e ∧ e ∈ t.inorder ∧ Upper tab name u ∧ UpperName tab e u) ∨
        (q = .ok none ∧ ∀ e ∈ t.inorder, ¬ ∃ u, Upper tab name u ∧ UpperName tab e u)) := by
  obtain ⟨r, hfl⟩ := h.flat
  obtain ⟨ix, d1, e1, hd1, hfind⟩ := C48_find hfl h.room h.flag h.stored fuel hf1 d hd ntfs tab hn ht h.sorted
  obtain ⟨g1, g2⟩ := hfind name fuel d1 hu hf2 hd1
  exact ⟨ix, d1, _, _, e1, rfl, g1, g2⟩

theorem DirOf.finds {V : View} {steps : List Step} {t : Node} {tab : List Nat} (h : DirOf V steps t tab)
    {ntfs : Ntfs} (hn : ntfs.upcaseTable = some tab) (ht : TableOk tab) {name : List Nat} (hu : Units name)
    {e : Ent} (he : Names tab t name e)
    (fuel : Nat) (hf1 : steps.length < fuel) (hf2 : t.entries + t.nodes ≤ fuel) (d : Dev) (hd : d.Ok V.img) :
    ∃ ix d1 x d2, V.base.directoryIndex fuel d = (.ok ix, d1) ∧
      ix.findName ntfs name fuel d1 = (.ok (some x), d2) ∧ d2.Ok V.img ∧ x.Is e := by
  obtain ⟨ix, d1, q, d2, e1, e2, hd2, ⟨x, e', u, rfl, g2, g3, g4, g5⟩ | ⟨rfl, g2⟩⟩ :=
    h.find hn ht name hu fuel hf1 hf2 d hd
  · have := he.only e' g3 ⟨u, g4, g5⟩
    subst this
    exact ⟨ix, d1, x, d2, e1, e2, hd2, g2⟩
  · exact absurd he.upper (g2 e he.mem)

theorem Spec.UpperName.key_length {tab : List Nat} {e : Ent} {u : List Nat} (h : UpperName tab e u) :
    68 ≤ e.key.length := by
  obtain ⟨s, h, _⟩ := h
  exact h.room

/-- The file a found entry refers to. -/
theorem IEntry.Is.toFile {x : IEntry} {e : Ent} (h : x.Is e) {F : View}
    (hF : RecordOf F (leNat e.head % 2 ^ 48)) (hm : HasMft F) (d : Dev) (hd : d.Ok F.img) :
    ∃ d', x.toFile F.ntfs d = (.ok F.base, d') ∧ d'.Ok F.img := by
  have hl : e.head.length = 8 := by
    obtain ⟨sub, hs⟩ := h
    have := hs.room
    rw [← hs.head, List.length_take]
    omega
  obtain ⟨d', e1, hd'⟩ := hF.load hm d hd
  refine ⟨d', ?_, hd'⟩
  unfold IEntry.toFile
  rw [StM.bind_of_ok (a := ⟨e.head⟩) (s' := d) (by rw [StM.lift_apply, (C25_contents h).1])]
  unfold FileRef.toFile
  rw [(C36_split e.head hl).1, e1]

/-- The key of a found entry. -/
theorem IEntry.Is.fileNameKey {x : IEntry} {e : Ent} (h : x.Is e) {tab u : List Nat}
    (hu : UpperName tab e u) : x.fileNameKey = .ok (fileNameAt e.key) := by
  obtain ⟨s, hk, _⟩ := hu
  have hr := hk.room
  have hne : e.key ≠ [] := by
    intro h0
    rw [h0] at hr
    simp at hr
  obtain ⟨p, hp⟩ := (C25_contents h).2 FileName FileName.keyFromSlice hne
  have hc := hk.count
  have hf := hk.fits
  have : FileName.keyFromSlice e.key p = .ok (fileNameAt e.key) := by
    rw [(C38_resident e.key p).2.2.2.2, (C38_resident_ok_iff e.key p).2.2.2.2 hr (by omega) hk.kind]
  unfold IEntry.fileNameKey
  rw [hp, this]
  rfl

theorem stripSlash {arg : List Char} (hne : arg ≠ []) (hsl : arg.head? ≠ some '/') :
    stripPrefix ['/'] arg = none := by
  unfold stripPrefix
  refine if_neg ?_
  cases arg with
  | nil => exact absurd rfl hne
  | cons c arg =>
    intro h
    simp at h
    exact hsl (by simp [h])

theorem Shell.last_eq (s : Shell) {f : NFile} {rest : List NFile} (hs : s.stack = f :: rest) :
    s.last = .ok f := by
  unfold Shell.last
  rw [hs]

/-! ### The commands -/

/-- **C59**: a name in the current directory stands for the file its entry refers to. -/
theorem C59_by_name (s : Shell) {D F : View} {rest : List NFile} (hs : s.stack = D.base :: rest)
    {steps : List Step} {t : Node} {tab : List Nat} (hD : DirOf D steps t tab)
    (hn : s.ntfs.upcaseTable = some tab) (ht : TableOk tab) (arg : List Char) (hne : arg ≠ [])
    (hsl : arg.head? ≠ some '/') {e : Ent} (he : Names tab t (utf16 arg) e)
    (hF : RecordOf F (leNat e.head % 2 ^ 48)) (hm : HasMft F) (hFn : F.ntfs = s.ntfs) (hFi : F.img = D.img)
    (fuel : Nat) (hf1 : steps.length < fuel) (hf2 : t.entries + t.nodes ≤ fuel) (d : Dev) (hd : d.Ok D.img) :
    ∃ d', s.parseFileArg arg fuel d = (.ok (.ok F.base), d') ∧ d'.Ok D.img := by
  obtain ⟨ix, d1, x, d2, e1, e2, hd2, hx⟩ := hD.finds hn ht (utf16_units arg) he fuel hf1 hf2 d hd
  obtain ⟨d3, e3, hd3⟩ := hx.toFile hF hm d2 (by rw [hFi]; exact hd2)
  rw [hFi] at hd3
  rw [hFn] at e3
  refine ⟨d3, ?_, hd3⟩
  unfold Shell.parseFileArg
  rw [if_neg hne, stripSlash hne hsl]
  dsimp only
  rw [StM.bind_of_ok (a := D.base) (s' := d) (by rw [StM.lift_apply, s.last_eq hs]), StM.bind_of_ok e1,
    StM.bind_of_ok e2]
  dsimp only
  rw [StM.bind_of_ok e3]
  rfl

/-- **C59**: a name that is in no entry of the current directory is reported. -/
theorem C59_no_such_file (s : Shell) {D : View} {rest : List NFile} (hs : s.stack = D.base :: rest)
    {steps : List Step} {t : Node} {tab : List Nat} (hD : DirOf D steps t tab)
    (hn : s.ntfs.upcaseTable = some tab) (ht : TableOk tab) (arg : List Char) (hne : arg ≠ [])
    (hsl : arg.head? ≠ some '/')
    (hno : ∀ e ∈ t.inorder, ¬ ∃ u, Upper tab (utf16 arg) u ∧ UpperName tab e u)
    (fuel : Nat) (hf1 : steps.length < fuel) (hf2 : t.entries + t.nodes ≤ fuel) (d : Dev) (hd : d.Ok D.img) :
    ∃ d', s.parseFileArg arg fuel d = (.ok (.error (.noSuchFile arg)), d') ∧ d'.Ok D.img := by
  obtain ⟨ix, d1, q, d2, e1, e2, hd2, ⟨x, e', u, rfl, g2, g3, g4, g5⟩ | ⟨rfl, g2⟩⟩ :=
    hD.find hn ht (utf16 arg) (utf16_units arg) fuel hf1 hf2 d hd
  · exact absurd ⟨u, g4, g5⟩ (hno e' g3)
  · refine ⟨d2, ?_, hd2⟩
    unfold Shell.parseFileArg
    rw [if_neg hne, stripSlash hne hsl]
    dsimp only
    rw [StM.bind_of_ok (a := D.base) (s' := d) (by rw [StM.lift_apply, s.last_eq hs]), StM.bind_of_ok e1,
      StM.bind_of_ok e2]
    rfl

/-- **C59**: a slash and a number stand for the record with that number. -/
theorem C59_by_number (s : Shell) {F : View} (arg : List Char) (number : Nat)
    (hp : parseRecordNumber arg = some number)
    (hF : RecordOf F number) (hm : HasMft F) (hFn : F.ntfs = s.ntfs)
    (fuel : Nat) (d : Dev) (hd : d.Ok F.img) :
    ∃ d', s.parseFileArg ('/' :: arg) fuel d = (.ok (.ok F.base), d') ∧ d'.Ok F.img := by
  obtain ⟨d1, e1, hd1⟩ := hF.load hm d hd
  rw [hFn] at e1
  refine ⟨d1, ?_, hd1⟩
  unfold Shell.parseFileArg
  have hst : stripPrefix ['/'] ('/' :: arg) = some arg := by
    unfold stripPrefix
    simp
  rw [if_neg (by simp), hst]
  dsimp only
  rw [hp]
  dsimp only
  rw [StM.bind_of_ok e1]
  rfl

theorem NFile.ofBytes_ntfs (n n' : Ntfs) (b : Bytes) (p k : Nat) (f : NFile) (h : NFile.ofBytes n b p k = .ok f) :
    NFile.ofBytes n' b p k = .ok { f with ntfs := n' } := by
  unfold NFile.ofBytes at h ⊢
  dsimp only at h ⊢
  obtain ⟨x1, h1, h⟩ := Res.bind_eq_ok.1 h
  obtain ⟨r, h2, h⟩ := Res.bind_eq_ok.1 h
  obtain ⟨x3, h3, h⟩ := Res.bind_eq_ok.1 h
  have h3' : NFile.validateSizes ⟨n', r, k⟩ = .ok x3 := h3
  injection h with h
  subst h
  rw [h1, Res.bind_ok, h2, Res.bind_ok, h3', Res.bind_ok]
  rfl

/-- The volume with the upcase table. -/
theorem HasMft.withTable {V W : View} (h : HasMft V) (tab : Option (List Nat))
    (hn : W.ntfs = { V.ntfs with upcaseTable := tab }) (hi : W.img = V.img) (he : W.mftEs = V.mftEs) :
    HasMft W := by
  obtain ⟨mft, mpre, moff, mlen, mstart, hm⟩ := h
  refine ⟨{ mft with ntfs := W.ntfs }, mpre, moff, mlen, mstart, ?_⟩
  obtain ⟨p, h1, h2, h3⟩ := hm.mftPos
  rw [hi, he]
  exact
    { mftPos := ⟨p, by rw [hn]; exact h1, by rw [hn]; exact h2, by
        have := NFile.ofBytes_ntfs _ W.ntfs _ _ _ _ h3
        rw [hn] at this ⊢
        exact this⟩
      sizePos := by rw [hn]; exact hm.sizePos
      chain := hm.chain
      attr := hm.attr
      first := hm.first
      ty := hm.ty
      nonRes := hm.nonRes
      header := hm.header
      runsAt := hm.runsAt
      runsIn := hm.runsIn
      runs := by rw [hn]; exact hm.runs }

theorem Ntfs.new_ok {img : Bytes} {g : Geometry} (h : BootSector img g) (d : Dev) (hd : d.Ok img) :
    ∃ d', Ntfs.new d = (.ok (Ntfs.ofGeometry g), d') ∧ d'.Ok img := by
  unfold Ntfs.new
  obtain ⟨d1, e1, h1, h2, h3⟩ := Dev.seekStart_ok 0 d hd.2
  rw [StM.bind_of_ok e1]
  obtain ⟨d2, e2, h4, h5⟩ := Dev.readExact_noFail 512 d1 h3
  rw [h2, h1, hd.1] at e2
  have hl := h.length
  rw [if_pos (by omega)] at e2
  rw [StM.bind_of_ok e2]
  simp only [StM.lift_apply, List.drop_zero]
  exact ⟨d2, by rw [(ofBoot_iff img hl _).2 ⟨g, h, rfl⟩], by rw [h4, h1, hd.1], h5⟩

/-- **C59**: the shell starts on every volume with a supported boot sector, an MFT, an upcase table of
the right size and a root directory record; then it is in the root directory. Partial: over a plain reader, as
for `C59_end_to_end_partial`. -/
theorem C59_start_partial {img : Bytes} {g : Geometry} (hb : BootSector img g) {U R : View}
    (hUi : U.img = img) (hUn : U.ntfs = Ntfs.ofGeometry g) (hm : HasMft U) (hU : RecordOf U 10)
    {steps pre post : List Step} {p : Step} {r : Res (Option AttrItem)} (hfl : Flattened U steps r)
    {c : Bytes} (hc : c.length = 131072) (ht : TableStored U steps pre post p c 131072)
    (hRi : R.img = img) (hRn : R.ntfs = { Ntfs.ofGeometry g with upcaseTable := some (tableOf c) })
    (hRe : R.mftEs = U.mftEs) (hR : RecordOf R 5)
    (fuel : Nat) (hfuel : steps.length < fuel) (d : Dev) (hd : d.Ok img) :
    ∃ d', Shell.start fuel d = (.ok ⟨[R.base], [], R.ntfs⟩, d') ∧ d'.Ok img := by
  obtain ⟨d1, e1, hd1⟩ := Ntfs.new_ok hb d hd
  have hmR : HasMft R := hm.withTable _ (by rw [hRn, hUn]) (by rw [hRi, hUi]) hRe
  obtain ⟨mft, mpre, moff, mlen, mstart, hm⟩ := hm
  obtain ⟨d2, e2, hd2⟩ := C32_read hm hU hfl ht fuel hfuel d1 (by rw [hUi]; exact hd1)
  have e : upcaseRes U.ntfs c 131072 = .ok R.ntfs := by
    unfold upcaseRes
    rw [if_neg (by simp), if_neg (by omega), hRn, hUn]
  rw [e, hUn] at e2
  rw [hUi] at hd2
  obtain ⟨d3, e3, hd3⟩ := hR.load hmR d2 (by rw [hRi]; exact hd2)
  rw [hRi] at hd3
  refine ⟨d3, ?_, hd3⟩
  unfold Shell.start
  rw [StM.bind_of_ok e1, StM.bind_of_ok e2]
  unfold Ntfs.rootDirectory
  rw [StM.bind_of_ok e3]
  rfl

/-- **C59**: `get` writes exactly the bytes of the first stream with the name, and reports its nominal
size. -/
theorem C59_get (s : Shell) {F : View} (arg : List Char) (exists' : List Char → Bool)
    (hex : exists' (outputName (splitStream arg).1 (splitStream arg).2) = false)
    (fuel : Nat) (d d1 : Dev) (hd1 : d1.Ok F.img)
    (hparse : s.parseFileArg (splitStream arg).1 fuel d = (.ok (.ok F.base), d1))
    {steps : List Step} {r : Res (Option AttrItem)} (hfl : Flattened F steps r)
    (ht : (splitStream arg).2 ≠ [] → ∃ t, F.base.ntfs.upcaseTable = some t ∧ TableOk t)
    {c : Bytes} {size : Nat} (hst : StreamOf F steps (utf16 (splitStream arg).2) c size)
    (hf1 : steps.length < fuel) (hf2 : c.length < fuel) :
    ∃ d', s.get arg exists' fuel d =
      (.ok (.ok size), some (outputName (splitStream arg).1 (splitStream arg).2, c), d') ∧ d'.Ok F.img := by
  obtain ⟨pre, p, post, file, off, g1, g2, g3, g4, ⟨nm, g5, g6⟩, ⟨i0, g7⟩, g8⟩ := hst
  obtain ⟨q, d2, e2, hd2, hq⟩ := C46_data hfl (utf16 (splitStream arg).2) (utf16_units _)
    (fun h => ht fun h' => h (by rw [h']; rfl)) fuel hf1 d1 hd1
  obtain ⟨f0, k1, _⟩ := Step.item g7
  obtain ⟨rfl, hoff⟩ := g3.unique k1 (hfl.known p (by rw [g1]; simp))
  obtain ⟨i, rfl, hi⟩ := hq.finds pre p post file off i0 g1 g2 g3 ⟨g7, hoff.symm, g4, nm, g5, g6⟩
  obtain ⟨a, t1, t2⟩ := g8 i hi.1
  obtain ⟨v, d3, v', d4, e3, hlen, e4, hd4, _⟩ := C53_copy_all t2 d2 hd2 (List.replicate 4096 0)
    (fun h => by cases h) fuel hf2
  refine ⟨d4, ?_, hd4⟩
  have ho : s.openData (splitStream arg).1 (splitStream arg).2 fuel d = (.ok (.ok v), d3) := by
    unfold Shell.openData
    rw [StM.bind_of_ok hparse]
    dsimp only
    rw [StM.bind_of_ok e2]
    dsimp only
    rw [StM.bind_of_ok (a := a) (s' := d2) (by rw [StM.lift_apply, t1]), StM.bind_of_ok e3]
    rfl
  rw [Shell.get_eq]
  rw [hex, if_neg (by simp), ho]
  dsimp only
  rw [e4]
  dsimp only
  rw [hlen]

/-- **C59**: a stream that does not exist is reported, but an empty output file has been created by then. -/
theorem C59_get_no_stream (s : Shell) {F : View} (arg : List Char) (exists' : List Char → Bool)
    (hex : exists' (outputName (splitStream arg).1 (splitStream arg).2) = false)
    (fuel : Nat) (d d1 : Dev) (hd1 : d1.Ok F.img)
    (hparse : s.parseFileArg (splitStream arg).1 fuel d = (.ok (.ok F.base), d1))
    {steps : List Step} {r : Res (Option AttrItem)} (hfl : Flattened F steps r)
    (ht : (splitStream arg).2 ≠ [] → ∃ t, F.base.ntfs.upcaseTable = some t ∧ TableOk t)
    (hst : NoStreamOf F steps r (utf16 (splitStream arg).2)) (hf1 : steps.length < fuel) :
    ∃ d', s.get arg exists' fuel d = (.ok (.error (.noDataAttribute (splitStream arg).2)),
      some (outputName (splitStream arg).1 (splitStream arg).2, []), d') ∧ d'.Ok F.img := by
  obtain ⟨q, d2, e2, hd2, hq⟩ := C46_data hfl (utf16 (splitStream arg).2) (utf16_units _)
    (fun h => ht fun h' => h (by rw [h']; rfl)) fuel hf1 d1 hd1
  have := hq.none_iff.2 hst
  subst this
  refine ⟨d2, ?_, hd2⟩
  have ho : s.openData (splitStream arg).1 (splitStream arg).2 fuel d =
      (.ok (.error (.noDataAttribute (splitStream arg).2)), d2) := by
    unfold Shell.openData
    rw [StM.bind_of_ok hparse]
    dsimp only
    rw [StM.bind_of_ok e2]
    rfl
  rw [Shell.get_eq]
  rw [hex, if_neg (by simp), ho]

/-- **C59**: `cd` to a name in the current directory makes the directory its entry refers to the current
one, and appends its best name to the path. -/
theorem C59_cd (s : Shell) {D F : View} {rest : List NFile} (hs : s.stack = D.base :: rest)
    {steps : List Step} {t : Node} {tab : List Nat} (hD : DirOf D steps t tab)
    (hn : s.ntfs.upcaseTable = some tab) (ht : TableOk tab) (arg : List Char) (hne : arg ≠ [])
    (hup : arg ≠ ['.', '.']) {e : Ent} (he : Names tab t (utf16 arg) e)
    (hdir : (field e.key 56 4).testBit 28 = true)
    (hF : RecordOf F (leNat e.head % 2 ^ 48)) (hm : HasMft F) (hFn : F.ntfs = s.ntfs) (hFi : F.img = D.img)
    {fsteps : List Step} {r : Res (Option AttrItem)} (hfl : Flattened F fsteps r)
    (hpl : ∀ s ∈ fsteps, ∀ file off, s.At F file off → field file.recordData off 4 = 0x30 →
      Placed file off)
    (hcl : CleanNames F fsteps r) {n : FileName} (hbn : BestNamed F fsteps D.base.fileRecordNumber n)
    (fuel : Nat) (hf1 : steps.length < fuel) (hf2 : t.entries + t.nodes ≤ fuel)
    (hf3 : fsteps.length < fuel) (d : Dev) (hd : d.Ok D.img) :
    ∃ d', s.cd arg fuel d = (.ok (none, { s with
      path := extendPath s.path (lossy (u16s n.name)), stack := F.base :: s.stack }), d') ∧ d'.Ok D.img := by
  obtain ⟨ix, d1, x, d2, e1, e2, hd2, hx⟩ := hD.finds hn ht (utf16_units arg) he fuel hf1 hf2 d hd
  obtain ⟨u, _, hu⟩ := he.upper
  have hk := hx.fileNameKey hu
  obtain ⟨d3, e3, hd3⟩ := hx.toFile hF hm d2 (by rw [hFi]; exact hd2)
  rw [hFn] at e3
  obtain ⟨q, d4, e4, hd4, _, hq, _⟩ := C56_best hfl hpl D.base.fileRecordNumber fuel hf3 d3 hd3
  have := hq n hcl hbn
  subst this
  rw [hFi] at hd4
  refine ⟨d4, ?_, hd4⟩
  unfold Shell.cd
  rw [if_neg hne, if_neg hup]
  unfold Shell.cdInto
  rw [StM.bind_of_ok (a := D.base) (s' := d) (by rw [StM.lift_apply, s.last_eq hs]), StM.bind_of_ok e1,
    StM.bind_of_ok e2]
  dsimp only
  have hb : (fileNameAt e.key).isDirectory = true := by
    rw [(C38_flags ⟨0, 0, 0, 0, 0, none⟩ (fileNameAt e.key) ⟨0, 0, 0⟩ 0).2.2.2]
    exact hdir
  rw [StM.bind_of_ok (a := fileNameAt e.key) (s' := d2) (by rw [StM.lift_apply, hk]), hb, if_neg (by simp),
    StM.bind_of_ok e3, StM.bind_of_ok e4]
  rfl

/-- What `dir` shows of an entry: whether it is a directory, and the name. -/
def Spec.lineOf (e : Ent) : Bool × Bytes :=
  ((field e.key 56 4).testBit 28, part e.key 66 (2 * field e.key 64 1))

theorem dirLoop_shows {tab : List Nat} (ix : Index) (fuel : Nat) (n : Nat) (es : List Ent)
    (out : List (Bool × Bytes)) (s : IndexEntries × Dev)
    (h : ∀ k, ShowsThenEnds es (IndexEntries.calls ix fuel k s))
    (hk : ∀ e ∈ es, ∃ u, UpperName tab e u) (hn : es.length < n) :
    ∃ d', dirLoop ix fuel n out s = (.ok (), out ++ es.map lineOf, d') := by
  induction n generalizing es out s with
  | zero => omega
  | succ n ih =>
    unfold dirLoop
    have h0 := h 1 0 (IndexEntries.next ix fuel s).1 (by unfold IndexEntries.calls; rfl)
    have hs : ∀ (k i : Nat) r, (IndexEntries.calls ix fuel k (IndexEntries.next ix fuel s).2)[i]? = some r →
        Shown es[i + 1]? r := by
      intro k i r hi
      refine h (k + 1) (i + 1) r ?_
      unfold IndexEntries.calls
      exact hi
    cases hx : IndexEntries.next ix fuel s with
    | mk r s' =>
      rw [hx] at h0 hs
      cases es with
      | nil =>
        have h0' : r = .ok none := h0
        subst h0'
        exact ⟨s'.2, by simp⟩
      | cons e es =>
        obtain ⟨x, h1, h2⟩ : ∃ x, r = .ok (some x) ∧ x.Is e := h0
        subst h1
        dsimp only
        obtain ⟨u, hu⟩ := hk e (by simp)
        rw [h2.fileNameKey hu]
        dsimp only
        obtain ⟨d', hd'⟩ := ih es (out ++ [lineOf e]) s' (fun k i r hi => hs k i r hi)
          (fun e he => hk e (by simp [he])) (by simp only [List.length_cons] at hn; omega)
        refine ⟨d', ?_⟩
        have hl : ((fileNameAt e.key).isDirectory, (fileNameAt e.key).name) = lineOf e := by
          unfold lineOf
          rw [(C38_flags ⟨0, 0, 0, 0, 0, none⟩ (fileNameAt e.key) ⟨0, 0, 0⟩ 0).2.2.2]
          rfl
        rw [hl, hd', List.map_cons, List.append_assoc]
        rfl

theorem Spec.Node.inorder_le (t : Node) : t.inorder.length ≤ t.entries := by
  induction t <;> simp_all only [Node.inorder, Node.entries, List.length_nil, List.length_append,
    List.length_cons] <;> omega

/-- **C59**: `dir` shows every entry of the current directory, in order, and nothing else. -/
theorem C59_dir (s : Shell) {D : View} {rest : List NFile} (hs : s.stack = D.base :: rest)
    {steps : List Step} {t : Node} {tab : List Nat} (hD : DirOf D steps t tab)
    (fuel : Nat) (hf1 : steps.length < fuel) (hf2 : t.entries + t.nodes < fuel) (d : Dev) (hd : d.Ok D.img) :
    ∃ d', s.dir fuel d = (.ok (), t.inorder.map lineOf, d') := by
  obtain ⟨r, hfl⟩ := hD.flat
  obtain ⟨ix, d1, e1, hd1, hl⟩ := C48_list hfl hD.room hD.flag hD.stored fuel hf1 d hd
  have hlen := t.inorder_le
  obtain ⟨d', h⟩ := dirLoop_shows ix fuel fuel t.inorder [] (IndexEntries.new ix, d1)
    (fun k => (hl fuel k d1 hf2 hd1).2) hD.sorted.named (by omega)
  refine ⟨d', ?_⟩
  unfold Shell.dir
  have t1 : (do let f ← StM.lift s.last; f.directoryIndex fuel : StM Dev Index) d = (.ok ix, d1) := by
    rw [StM.bind_of_ok (a := D.base) (s' := d) (by rw [StM.lift_apply, s.last_eq hs]), e1]
  rw [t1]
  exact h

/-- **C59**, from the bytes of the volume to the bytes of the file: for every volume with a boot sector,
an MFT, an upcase table and a root directory, starting the shell and getting a stream of a file named in
the root directory writes exactly the bytes of the stream. Partial: over a plain reader; missing are the
`SectorReader` and `BufReader` of `main` (main.rs:46-47), which are not transparent (C44). -/
theorem C59_end_to_end_partial {img : Bytes} {g : Geometry} (hb : BootSector img g) {U R F : View}
    (hUi : U.img = img) (hUn : U.ntfs = Ntfs.ofGeometry g) (hm : HasMft U) (hU : RecordOf U 10)
    {usteps upre upost : List Step} {p : Step} {ur : Res (Option AttrItem)} (hfl : Flattened U usteps ur)
    {tc : Bytes} (htc : tc.length = 131072) (ht : TableStored U usteps upre upost p tc 131072)
    (hRi : R.img = img) (hRn : R.ntfs = { Ntfs.ofGeometry g with upcaseTable := some (tableOf tc) })
    (hRe : R.mftEs = U.mftEs) (hR : RecordOf R 5)
    {rsteps : List Step} {t : Node} (hD : DirOf R rsteps t (tableOf tc))
    (arg : List Char) (hne : (splitStream arg).1 ≠ []) (hsl : (splitStream arg).1.head? ≠ some '/')
    {e : Ent} (he : Names (tableOf tc) t (utf16 (splitStream arg).1) e)
    (hF : RecordOf F (leNat e.head % 2 ^ 48)) (hFn : F.ntfs = R.ntfs) (hFb : F.base.ntfs = R.ntfs)
    (hFi : F.img = img) (hFe : F.mftEs = U.mftEs)
    {fsteps : List Step} {r : Res (Option AttrItem)} (hff : Flattened F fsteps r)
    {c : Bytes} {size : Nat} (hst : StreamOf F fsteps (utf16 (splitStream arg).2) c size)
    (exists' : List Char → Bool)
    (hex : exists' (outputName (splitStream arg).1 (splitStream arg).2) = false)
    (fuel : Nat) (hf1 : usteps.length < fuel) (hf2 : rsteps.length < fuel) (hf3 : t.entries + t.nodes ≤ fuel)
    (hf4 : fsteps.length < fuel) (hf5 : c.length < fuel) (d : Dev) (hd : d.Ok img) :
    ∃ s d1 d2, Shell.start fuel d = (.ok s, d1) ∧ s.get arg exists' fuel d1 =
      (.ok (.ok size), some (outputName (splitStream arg).1 (splitStream arg).2, c), d2) := by
  obtain ⟨d1, e1, hd1⟩ := C59_start_partial hb hUi hUn hm hU hfl htc ht hRi hRn hRe hR fuel hf1 d hd
  have htab : TableOk (tableOf tc) := by
    unfold TableOk tableOf
    rw [List.length_map, List.length_range]
  have hmF : HasMft F := hm.withTable (some (tableOf tc)) (by rw [hFn, hRn, hUn]) (by rw [hFi, hUi]) hFe
  have hup : R.ntfs.upcaseTable = some (tableOf tc) := by rw [hRn]
  obtain ⟨d2, e2, hd2⟩ := C59_by_name ⟨[R.base], [], R.ntfs⟩ rfl hD hup htab (splitStream arg).1
    hne hsl he hF hmF hFn (by rw [hFi, hRi]) fuel hf2 hf3 d1 (by rw [hRi]; exact hd1)
  obtain ⟨d3, e3, _⟩ := C59_get ⟨[R.base], [], R.ntfs⟩ arg exists' hex fuel d1 d2
    (by rw [hFi, ← hRi]; exact hd2) e2 hff (fun _ => ⟨_, by rw [hFb, hup], htab⟩) hst hf4 hf5
  exact ⟨_, d1, d3, e1, e3⟩

end NT
