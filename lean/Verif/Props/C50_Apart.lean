import Verif.Props.C51_BaseSplit

/-! C50: attributes with different names stay apart if instance numbers do not coincide between file
records. -/

namespace NT

open Spec

theorem Spec.Each.get {α β : Type} {R : α → β → Prop} {as : List α} {bs : List β} (h : Each R as bs)
    (i : Nat) (a : α) (ha : as[i]? = some a) : ∃ b, bs[i]? = some b ∧ R a b := by
  induction h generalizing i with
  | nil => simp at ha
  | cons h _ ih =>
    cases i with
    | zero => simp only [List.getElem?_cons_zero, Option.some.injEq] at ha; subst ha; exact ⟨_, rfl, h⟩
    | succ i => simpa using ih i (by simpa using ha)

/-- The foreign entries of the list with equal type and instance number carry the same name. -/
def Spec.InstancesTell (base : Nat) (es : List LEntry) : Prop :=
  ∀ a ∈ es, ∀ b ∈ es, a.record ≠ base → b.record ≠ base → a.Same b → a.name = b.name

theorem Spec.Groups.covers {base : Nat} {K : LEntry → Kind → Prop} {es : List LEntry}
    {gs : List (LEntry × List LEntry)} (hg : Groups base K es gs) (h : InstancesTell base es)
    (e : LEntry) (he : e ∈ es) (hb : e.record ≠ base) :
    ∃ (i : Nat) (g : LEntry × List LEntry), gs[i]? = some g ∧ g.1 ∈ es ∧ g.1.record ≠ base ∧ g.1.ty = e.ty ∧ g.1.name = e.name := by
  have tail : ∀ (a : LEntry) (xs : List LEntry), InstancesTell base (a :: xs) → InstancesTell base xs :=
    fun a xs h x hx y hy => h x (List.mem_cons_of_mem _ hx) y (List.mem_cons_of_mem _ hy)
  induction hg with
  | nil => cases he
  | own x xs gs hx _ ih =>
    rcases List.mem_cons.1 he with rfl | he
    · exact absurd hx hb
    · obtain ⟨i, g, h1, h2, h3⟩ := ih (tail _ _ h) he
      exact ⟨i, g, h1, List.mem_cons_of_mem _ h2, h3⟩
  | resident x xs gs hx _ _ ih =>
    rcases List.mem_cons.1 he with rfl | he
    · exact ⟨0, _, rfl, List.mem_cons_self, hb, rfl, rfl⟩
    · obtain ⟨i, g, h1, h2, h3⟩ := ih (tail _ _ h) he
      exact ⟨i + 1, g, by simpa using h1, List.mem_cons_of_mem _ h2, h3⟩
  | fails x xs gs hx _ _ ih =>
    rcases List.mem_cons.1 he with rfl | he
    · exact ⟨0, _, rfl, List.mem_cons_self, hb, rfl, rfl⟩
    · obtain ⟨i, g, h1, h2, h3⟩ := ih (tail _ _ h) he
      exact ⟨i + 1, g, by simpa using h1, List.mem_cons_of_mem _ h2, h3⟩
  | split x conn rest gs hx _ hconn _ _ ih =>
    have hsub : InstancesTell base rest := fun a ha b hb =>
      h a (by simp [ha]) b (by simp [hb])
    rcases List.mem_cons.1 he with rfl | he'
    · exact ⟨0, _, rfl, List.mem_cons_self, hb, rfl, rfl⟩
    · rcases List.mem_append.1 he' with hc | hr
      · rcases hconn e hc with h1 | h1
        · exact absurd h1 hb
        · exact ⟨0, _, rfl, List.mem_cons_self, hx, h1.1.symm,
            (h e he x List.mem_cons_self hb hx h1).symm⟩
      · obtain ⟨i, g, h1, h2, h3⟩ := ih hsub hr
        exact ⟨i + 1, g, by simpa using h1, by simp [h2], h3⟩

/-- C50, the part that holds: if entries in other file records with equal type and instance number
always carry the same name (as in every list whose instance numbers happen not to coincide), then for
every entry of another file record the iteration shows an item with its type and name, and entries
that differ in type or name get different items. Missing for C50: lists whose instance numbers
coincide (`C50_negation`). -/
theorem C50_apart_partial {ntfs : Ntfs} {img : Bytes} {mft : NFile} {mftEs : List Extent}
    {mpre : List Nat} {moff mlen mstart : Nat}
    (hm : MftStored ntfs img mft mftEs mpre moff mlen mstart) (f : NFile)
    (hf : f.ntfs = ntfs) (h : 32 ≤ f.recordData.length) (offs1 offs2 : List Nat) (offL lenL fin : Nat)
    (hc : Chain f.recordData (field f.recordData 20 2) (offs1 ++ offL :: offs2) fin)
    (hty : ∀ o ∈ offs1 ++ offs2, field f.recordData o 4 ≠ 0x20)
    (hL : AttrAt f.recordData offL lenL) (es : List LEntry) (hst : ListStored ntfs img f offL lenL es)
    (hes : ∀ e ∈ es, ∃ t : AttrType, e.ty = t.code)
    (hk : ∀ e ∈ es, e.record ≠ f.number → ∃ k, KindOf ntfs img mftEs e k)
    (htell : InstancesTell f.number es)
    (r : Res (Option AttrItem))
    (he : EndResult f fin r) (d : Dev) (hd : d.NoFail) (hi : d.img = img) (k : Nat) :
    ∃ it, ∃ rs : List (Res (Option AttrItem)), f.attributes = .ok it ∧
      Attrs.calls (offs1.length + (rs.length + (offs2.length + k))) (it, d) =
        offs1.map (ownItem f) ++ (rs ++ (offs2.map (ownItem f) ++ List.replicate k r)) ∧
      ∃ at_ : LEntry → Nat,
        (∀ e ∈ es, e.record ≠ f.number → ∃ g behind x, rs[at_ e]? = some x ∧ g ∈ es ∧
          g.record ≠ f.number ∧ g.ty = e.ty ∧ g.name = e.name ∧ Shows ntfs img mftEs f g behind x) ∧
        (∀ a ∈ es, ∀ b ∈ es, a.record ≠ f.number → b.record ≠ f.number →
          (a.ty ≠ b.ty ∨ a.name ≠ b.name) → at_ a ≠ at_ b) := by
  obtain ⟨gs, hg⟩ := C23_groups_exist f.number (KindOf ntfs img mftEs) es hk
  obtain ⟨it, rs, h1, h2, h3⟩ := C23_with_list hm f hf h offs1 offs2 offL lenL fin hc hty hL es hst hes
    gs hg r he d hd hi k
  have hlen : gs.length = rs.length := by
    clear h3 hg
    induction h2 with
    | nil => rfl
    | cons _ _ ih => simp [ih]
  have hcov : ∀ e : LEntry, ∃ i : Nat, e ∈ es → e.record ≠ f.number →
      ∃ g, gs[i]? = some g ∧ g.1 ∈ es ∧ g.1.record ≠ f.number ∧ g.1.ty = e.ty ∧ g.1.name = e.name := by
    intro e
    by_cases hE : e ∈ es ∧ e.record ≠ f.number
    · obtain ⟨i, g, q⟩ := hg.covers htell e hE.1 hE.2
      exact ⟨i, fun _ _ => ⟨g, q⟩⟩
    · exact ⟨0, fun a b => absurd ⟨a, b⟩ hE⟩
  refine ⟨it, rs, h1, by rw [← hlen]; exact h3, fun e => Classical.choose (hcov e), ?_, ?_⟩
  · intro e he' hb
    obtain ⟨g, q1, q2, q3, q4, q5⟩ := Classical.choose_spec (hcov e) he' hb
    obtain ⟨x, p1, p2⟩ := h2.get _ g q1
    exact ⟨g.1, g.2, x, p1, q2, q3, q4, q5, p2⟩
  · intro a ha b hb ha' hb' hne heq
    obtain ⟨g, q1, _, _, q4, q5⟩ := Classical.choose_spec (hcov a) ha ha'
    obtain ⟨g', p1, _, _, p4, p5⟩ := Classical.choose_spec (hcov b) hb hb'
    dsimp only at heq
    rw [heq, p1] at q1
    injection q1 with q1
    subst q1
    rcases hne with h | h
    · exact h (by rw [← q4, ← p4])
    · exact h (by rw [← q5, ← p5])

/-- The hypothesis about instance numbers: a list with two streams that have different instance
numbers and a third entry that continues the first one. -/
example : InstancesTell 3 [⟨0x80, 0, 1 + 2 ^ 48, 0, [97]⟩, ⟨0x80, 9, 4 + 2 ^ 48, 0, [97]⟩,
    ⟨0x80, 0, 2 + 2 ^ 48, 1, [98]⟩] := by
  intro a ha b hb _ _ hs
  simp only [List.mem_cons, List.not_mem_nil, or_false] at ha hb
  rcases ha with rfl | rfl | rfl <;> rcases hb with rfl | rfl | rfl <;>
    first | rfl | exact absurd hs.2 (by decide)

set_option maxRecDepth 20000 in
/-- All hypotheses together, on the image of C51: the entry of record 2 gets an item. -/
example (d : Dev) (hd : d.NoFail) (hi : d.img = exBaseImage) (k : Nat) :
    ∃ it rs, (exBaseFile 1).attributes = .ok it ∧
      Attrs.calls (0 + (rs.length + (1 + k))) (it, d) = [] ++ (rs ++
        ([128].map (ownItem (exBaseFile 1)) ++ List.replicate k (.ok none))) ∧ rs ≠ [] := by
  have hA : AttrAt (exBaseFile 1).recordData 56 72 := ⟨by decide, by decide, by decide, by decide⟩
  have hB : AttrAt (exBaseFile 1).recordData 128 72 := ⟨by decide, by decide, by decide, by decide⟩
  obtain ⟨it, rs, h1, h2, p, h3, _⟩ := C50_apart_partial exBaseMft (exBaseFile 1) rfl (by decide) []
    [128] 56 72 200 (.cons hA (.cons hB (.nil 200)))
    (by
      intro o ho
      simp only [List.nil_append, List.mem_cons, List.not_mem_nil, or_false] at ho
      subst ho
      decide) hA _ exBaseList
    (by
      intro e he
      simp only [List.mem_cons, List.not_mem_nil, or_false] at he
      rcases he with rfl | rfl <;> exact ⟨.data, rfl⟩)
    (by
      intro e he hne
      simp only [List.mem_cons, List.not_mem_nil, or_false] at he
      rcases he with rfl | rfl
      · exact absurd (by decide) hne
      · exact ⟨.split, _, _, exBaseLoads.1, by decide⟩)
    (by
      intro a ha b hb ha' hb' _
      simp only [List.mem_cons, List.not_mem_nil, or_false] at ha hb
      rcases ha with rfl | rfl <;> rcases hb with rfl | rfl <;>
        first | rfl | exact absurd (by decide) ha' | exact absurd (by decide) hb')
    (.ok none) (.inl ⟨fun h => absurd h (by decide), rfl⟩) d hd hi k
  refine ⟨it, rs, h1, h2, ?_⟩
  obtain ⟨_, _, x, hx, _⟩ := h3 (exBaseEntry 1 2 0) (by simp) (by decide)
  rintro rfl
  simp at hx

end NT
