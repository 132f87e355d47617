import Verif.Props.C79_Index
import Verif.Props.C59_Example

namespace NT
open Spec

/-- The hypotheses of `C79_small` hold for the root directory of the example disk of C59: an index of two
entries, all in the index root. -/
theorem exRoot_storedIndex (img : Bytes) : StoredIndex img ⟨exRoot.base, none, 56, none⟩ none exRootTree := by
  have hval : valueAt exRoot.base 56 = part (exFixed exDiskRec5) 88 224 := by
    show ((exFixed exDiskRec5).drop (56 + field (exFixed exDiskRec5) (56 + 20) 2)).take
      (field (exFixed exDiskRec5) (56 + 16) 4) = _
    decide +kernel
  have ht := exRoot_tree
  have e : (part (exFixed exDiskRec5) 120 192).length = 192 := by decide +kernel
  have e' : ∀ d : Bytes, d.length = 192 → NodeAt (fun _ _ _ _ => False) d 0 192 exRootTree →
      NodeAt (fun _ _ _ _ => False) d 0 d.length exRootTree := by
    intro d h1 h2
    rw [h1]
    exact h2
  have hv : (Attr.mk exRoot.base 56 none).Valid := by
    refine ⟨?_, ?_, ?_⟩
    · show 56 + 16 ≤ (exFixed exDiskRec5).length
      decide +kernel
    · show 16 ≤ field (exFixed exDiskRec5) 60 4
      decide +kernel
    · show 56 + field (exFixed exDiskRec5) 60 4 ≤ (exFixed exDiskRec5).length
      decide +kernel
  have hnew : Attr.new exRoot.base 56 none = .ok ⟨exRoot.base, 56, none⟩ := Attr.new_ok_iff.mpr ⟨rfl, hv⟩
  have hp : Placed exRoot.base 56 := by
    show field (exFixed exDiskRec5) 64 1 = 0 ∧ 78 ≤ (exFixed exDiskRec5).length ∧
      field (exFixed exDiskRec5) 76 2 + field (exFixed exDiskRec5) 72 4 ≤ field (exFixed exDiskRec5) 60 4
    decide +kernel
  have hty : Attr.ty ⟨exRoot.base, 56, none⟩ = .ok .indexRoot := by decide +kernel
  have hrv := (Attr.rootValue_placed hv hty hp).1
  rw [hval] at hrv
  exact .small (d := part (exFixed exDiskRec5) 120 192) (size := 512) hnew hrv
    ⟨by decide +kernel, by decide +kernel, by decide +kernel, by decide +kernel, by decide +kernel,
      by decide +kernel, by decide +kernel⟩ (e' _ e ht)

example (img : Bytes) : ∃ ix, Index.new ⟨exRoot.base, none, 56, none⟩ none = .ok ix ∧
    ∀ (fuel k : Nat) (d : Dev), d.Full → d.img = img →
      Dev.Used 0 d (ix.find (fun b _ => .ok b) (fun _ => .ok .lt) fuel d).2 ∧
      Dev.Used 0 d (IndexEntries.after ix fuel k (IndexEntries.new ix, d)).2 :=
  C79_small (exRoot_storedIndex img) _ _

end NT
