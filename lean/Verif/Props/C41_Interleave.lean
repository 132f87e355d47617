import Verif.Props.C01_NonResident

namespace NT

open Spec

/-- A user working on several values (numbered) over one device: each operation names its value. -/
def interleave (vs : Nat → NonRes) (d : Dev) : List (Nat × Op) → List (Nat × Out)
  | [] => []
  | (i, op) :: ops =>
    let (o, v', d') := (vs i).step d op
    (i, o) :: interleave (fun j => if j = i then v' else vs j) d' ops

/-- The part of a sequence that belongs to value `i`. -/
def Spec.only {α : Type} (i : Nat) (xs : List (Nat × α)) : List α :=
  (xs.filter (fun x => x.1 == i)).map Prod.snd

/-- C41: values of one volume used in any interleaving over the same device give each user exactly the
results of an in-memory file of that value's own contents: neither the device position left behind by
the other values nor the device's way of splitting reads matters. -/
theorem C41_interleaving (cs : Nat) (img : Bytes) (data : Nat → Bytes) (es : Nat → List Extent)
    (p : Nat → Pos) (size : Nat → Nat) (h : ∀ i, StoredAs cs img (data i) (es i))
    (hsize : ∀ i, size i < U64) (d : Dev) (hd : d.NoFail) (hi : d.img = img)
    (ops : List (Nat × Op)) (hops : ∀ o ∈ ops, o.2.InRange) :
    ∃ vs : Nat → NonRes, (∀ i, NonRes.new cs (data i) (p i) (size i) = .ok (vs i)) ∧
      ∀ i, only i (interleave vs d ops) =
        (Flat.run ⟨(content cs img (es i)).take (size i), size i, 0⟩ (only i ops)).1 := by
  have himg := (h 0).imgLt
  have key : ∀ (i : Nat) (vs : Nat → NonRes), (∀ i, (vs i).Good img ((es i).map (runOf cs))) →
      only i (interleave vs d ops) =
        (((vs i).flat img ((es i).map (runOf cs))).run (only i ops)).1 := by
    intro i
    induction ops generalizing d with
    | nil => intro vs _; rfl
    | cons o ops ih =>
      obtain ⟨j, op⟩ := o
      intro vs hg
      obtain ⟨h1, h2, h3, h4, h5⟩ := NonRes.step_refines img _ (vs j) (hg j) himg op
        (hops (j, op) (by simp)) d hd hi
      have hg' : ∀ k, (if k = j then ((vs j).step d op).2.1 else vs k).Good img
          ((es k).map (runOf cs)) := by
        intro k
        by_cases hk : k = j
        · subst hk; rw [if_pos rfl]; exact h3
        · rw [if_neg hk]; exact hg k
      have := ih ((vs j).step d op).2.2 h4 h5 (fun o ho => hops o (by simp [ho])) _ hg'
      simp only [interleave]
      by_cases hij : j = i
      · subst hij
        have e1 : only j ((j, ((vs j).step d op).1) :: interleave
            (fun k => if k = j then ((vs j).step d op).2.1 else vs k) ((vs j).step d op).2.2 ops) =
            ((vs j).step d op).1 :: only j (interleave
            (fun k => if k = j then ((vs j).step d op).2.1 else vs k) ((vs j).step d op).2.2 ops) := by
          simp [only]
        have e2 : only j ((j, op) :: ops) = op :: only j ops := by simp [only]
        rw [e1, e2, this, if_pos rfl, h1, h2]
        rfl
      · have e1 : only i ((j, ((vs j).step d op).1) :: interleave
            (fun k => if k = j then ((vs j).step d op).2.1 else vs k) ((vs j).step d op).2.2 ops) =
            only i (interleave
            (fun k => if k = j then ((vs j).step d op).2.1 else vs k) ((vs j).step d op).2.2 ops) := by
          simp [only, hij]
        have e2 : only i ((j, op) :: ops) = only i ops := by simp [only, hij]
        rw [e1, e2, this, if_neg (fun h => hij h.symm)]
  have hnew := fun i => NonRes.new_good (h i) (p i) (size i) (hsize i)
  refine ⟨fun i => Classical.choose (hnew i), fun i => (Classical.choose_spec (hnew i)).1, ?_⟩
  have hgood : ∀ i, (Classical.choose (hnew i)).Good img ((es i).map (runOf cs)) :=
    fun i => (Classical.choose_spec (hnew i)).2.1
  have hflat : ∀ i, (Classical.choose (hnew i)).flat img ((es i).map (runOf cs)) =
      ⟨(content cs img (es i)).take (size i), size i, 0⟩ := by
    intro i
    obtain ⟨_, _, h3, h4, _⟩ := Classical.choose_spec (hnew i)
    unfold NonRes.flat
    rw [restBytes_runOf, h3, h4]
  intro i
  rw [← hflat i]
  exact key i _ hgood

/-- Two values over one device that delivers at most two bytes per read. -/
example : ∃ v0 v1, NonRes.new 4 [0x11, 1, 2, 0x01, 1, 0x11, 1, 0xFF, 0] none 10 = .ok v0 ∧
    NonRes.new 4 [0x11, 2, 1] none 8 = .ok v1 ∧
    interleave (fun i => if i = 0 then v0 else v1)
      ⟨[0, 1, 2, 3, 4, 5, 6, 7, 8, 9, 10, 11], 0, List.replicate 9 (.chunk 1)⟩
      [(0, .read [77, 77]), (1, .seek (.start 1)), (1, .read [77, 77, 77]), (0, .read [77, 77])] =
      [(0, ⟨.ok 2, [8, 9]⟩), (1, ⟨.ok 1, []⟩), (1, ⟨.ok 3, [5, 6, 7]⟩), (0, ⟨.ok 2, [10, 11]⟩)] := by
  exact ⟨_, _, rfl, rfl, by decide⟩

/-- `C41_interleaving` on values of two sizes over the runs of `exampleStored`. -/
example := C41_interleaving 4 [0, 1, 2, 3, 4, 5, 6, 7, 8, 9, 10, 11] _ _ (fun _ => none) (fun i => if i = 0 then 10 else 7)
  (fun _ => exampleStored) (by intro i; split <;> decide)
  ⟨[0, 1, 2, 3, 4, 5, 6, 7, 8, 9, 10, 11], 0, List.replicate 9 (.chunk 1)⟩
  (by intro r hr e; rw [List.eq_of_mem_replicate hr]; simp) rfl
  [(0, .read [77, 77]), (1, .seek (.start 1)), (1, .read [77, 77, 77]), (0, .read [77, 77])] (by decide)

end NT
