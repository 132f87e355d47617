import Verif.Lemmas.Val
import Verif.Props.C06_ReadExact

/-! C06 for values that are split over an attribute list. -/

namespace NT

open Spec

theorem ALVal.run_ok (img : Bytes) (gs : List (List DataRun)) (himg : img.length < U64)
    (ops : List Op) (hops : ∀ op ∈ ops, op.InRange) (v : ALVal) (hg : v.Good img gs) (d : Dev)
    (hd : d.Ok img) : (v.run d ops).2.2.Ok img := by
  induction ops generalizing v d with
  | nil => exact hd
  | cons op ops ih =>
    obtain ⟨h1, h2, h3, h4⟩ := v.step_refines img gs hg himg op (hops op (by simp)) d hd
    exact ih (fun o ho => hops o (by simp [ho])) _ h3 _ h4

/-- **C06**, a value that is split over an attribute list (as in C03), after any history of reads and seeks:
`read_exact` does what it does on the in-memory file. -/
theorem C06_list {ntfs : Ntfs} {img : Bytes} {mft : NFile} {mftEs : List Extent}
    {mpre : List Nat} {moff mlen mstart : Nat} (hm : MftStored ntfs img mft mftEs mpre moff mlen mstart)
    {inst : Nat} {ty : AttrType} (parts : List Part) (hne : parts ≠ [])
    (hp : ∀ p ∈ parts, p.Stored ntfs img mftEs inst ty) (rest : List LEntry)
    (hr : OtherValue inst ty rest) (b : Bytes)
    (h : ListEncodes (parts.map Part.entry ++ rest) b) (l : AttrList) (hh : l.Holds img b)
    (a : Attr) (hal : a.list = some l) (han : a.file.ntfs = ntfs)
    (h56 : a.offset + 56 ≤ a.recordData.length) (hanr : field a.recordData (a.offset + 8) 1 ≠ 0)
    (hai : field a.recordData (a.offset + 14) 2 = inst) (hat : field a.recordData a.offset 4 = ty.code)
    (size : Nat) (has : field a.recordData (a.offset + 48) 8 = size)
    (d : Dev) (hd : d.NoFail) (hi : d.img = img) (ops : List Op) (hops : ∀ op ∈ ops, op.InRange) (buf : Bytes) :
    let file : Flat := ⟨(content ntfs.clusterSize img (parts.flatMap Part.es)).take size, size, 0⟩
    ∃ v d1 v1 d2 v2 d3, a.value d = (.ok (.list v), d1) ∧ (v.run d1 ops).2 = (v1, d2) ∧
      (Val.list v1).readExact buf d2 =
        (((file.run ops).2.readExact buf).1, (v2, d3), ((file.run ops).2.readExact buf).2.2) ∧
      v2.streamPosition = ((file.run ops).2.readExact buf).2.1 := by
  intro file
  obtain ⟨v, d1, hval, hd1, hsz, hpos, gs, hgood, hflat⟩ :=
    ALVal.value_good hm parts hne hp rest hr b h l hh a hal han h56 hanr hai hat size has d hd hi
  obtain ⟨i1, i2, i3⟩ := ALVal.run_refines img gs hm.runs.imgLt ops hops v hgood d1 hd1
  have i4 := ALVal.run_ok img gs hm.runs.imgLt ops hops v hgood d1 hd1
  have hf : v.flat img gs = file := by
    unfold ALVal.flat
    rw [hflat, restBytes_runOf, hsz, hpos]
  rw [hf] at i2
  obtain ⟨⟨v2, d3⟩, -, j2, -, j4⟩ := readExactLoop_readsLike
    (Val.readsLike img ((restBytes img gs.flatten).take (v.run d1 ops).2.1.dataSize))
    (buf.length + (v.run d1 ops).2.2.sched.length + 1) (.list (v.run d1 ops).2.1, (v.run d1 ops).2.2) [] buf
    ⟨⟨hm.runs.imgLt, gs, i3, rfl⟩, i4⟩ (by omega)
  refine ⟨v, d1, _, _, v2, d3, hval, rfl, ?_, ?_⟩
  · unfold Val.readExact
    rw [j2, flat_readExact_eq, ← i2]
    rfl
  · rw [flat_readExact_eq, ← i2]
    exact j4

set_option maxRecDepth 20000 in
/-- The value of the example of C03, at the border of its parts and at its end. -/
example : ∃ (v : ALVal) (d1 : Dev) (v1 : ALVal) (d2 : Dev) (v2 : Val) (d3 : Dev), (v.run d1 [.seek (.start 62)]).2 = (v1, d2) ∧
    (Val.list v1).readExact (List.replicate 4 0) d2 = (.ok (), (v2, d3), [0x77, 0x77, 0x99, 0x99]) := by
  have h3 := ListEncodes.cons ⟨0xA0, 0, 1, 5, []⟩ [] [] []
    ⟨by decide, by decide, by decide, by decide, by decide, by decide⟩ (by decide) .nil
  have h2 := ListEncodes.cons (exPart 320 2 9).entry [] _ _
    ⟨by decide, by decide, by decide, by decide, by decide, by decide⟩ (by decide) h3
  have h1 := ListEncodes.cons (exPart 192 1 7).entry [] _ _
    ⟨by decide, by decide, by decide, by decide, by decide, by decide⟩ (by decide) h2
  obtain ⟨v, d1, v1, d2, v2, d3, _, g2, g3, _⟩ := C06_list exPartsStored [exPart 192 1 7, exPart 320 2 9] (by simp)
    (by intro p hp; simp only [List.mem_cons, List.not_mem_nil, or_false] at hp
        rcases hp with rfl | rfl
        · exact exPart_stored.1
        · exact exPart_stored.2)
    [⟨0xA0, 0, 1, 5, []⟩] (by rintro e ⟨⟩; exact .inr ⟨.indexAllocation, rfl, by decide⟩) _ h1 (.resident _ none) rfl
    ⟨exPartsFile 192 1, 56, some (.resident _ none)⟩ rfl rfl (by decide) (by decide) (by decide) (by decide) 100 (by decide)
    ⟨exPartsImage, 0, [.chunk 1, .chunk 3]⟩ (by simp [Dev.NoFail]) rfl [.seek (.start 62)] (by decide) (List.replicate 4 0)
  refine ⟨v, d1, v1, d2, v2, d3, g2, g3.trans ?_⟩
  congr 1

end NT
