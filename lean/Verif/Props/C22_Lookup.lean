import Verif.Props.C20_AttributeValues

/-! C22: attribute lookup in one file record returns the first match. -/

namespace NT

open Spec

theorem typeCodes_iff (n : Nat) : n ∈ typeCodes ↔ ∃ t : AttrType, n = t.code := by
  constructor
  · intro h
    have : typeCodes = [AttrType.standardInformation, .attributeList, .fileName, .objectId,
      .securityDescriptor, .volumeName, .volumeInformation, .data, .indexRoot, .indexAllocation,
      .bitmap, .reparsePoint, .eaInformation, .ea, .propertySet, .loggedUtilityStream,
      .end_].map AttrType.code := by decide
    rw [this] at h
    obtain ⟨t, _, ht⟩ := List.mem_map.1 h
    exact ⟨t, ht.symm⟩
  · rintro ⟨t, rfl⟩; cases t <;> decide

theorem NameIs_unique {d : Bytes} {off : Nat} {s s' : List Nat} (h : NameIs d off s)
    (h' : NameIs d off s') : s = s' := by
  unfold NameIs at h h'
  simp only at h h'
  obtain ⟨hu, h⟩ := h
  obtain ⟨hu', h'⟩ := h'
  split at h
  · rename_i h0; rw [if_pos h0] at h'; rw [h, h']
  · rename_i h0
    rw [if_neg h0] at h'
    have := h.2.symm.trans h'.2
    rw [← u16s_flatMap s hu, this, u16s_flatMap s' hu']

theorem NameIs_lt {a : Attr} (hv : a.Valid) {s : List Nat} (h : NameIs a.recordData a.offset s) :
    ∃ b, a.name = .ok b := by
  rw [Attr.name_eq hv.header _ _ _ rfl rfl rfl hv.inside]
  unfold NameIs at h
  simp only at h
  obtain ⟨_, h⟩ := h
  split at h
  · rename_i h0; exact ⟨_, by rw [if_pos h0]⟩
  · rename_i h0
    rw [if_neg h0, if_neg (by omega), if_neg (by omega)]
    exact ⟨_, rfl⟩

/-- The body of the loop of `find_resident_attribute`, applied to one attribute. -/
def Attr.verdict (a : Attr) (ty : AttrType) (name : Option (List Nat)) (inst : Option Nat) : Res Bool := do
  let t ← a.ty
  if t ≠ ty then .ok false
  else do
    let im ← a.instMatches inst
    if !im then .ok false
    else a.nameMatches name

theorem Attr.verdict_cases {a : Attr} (hv : a.Valid) (ty : AttrType) (name : Option (List Nat))
    (inst : Option Nat) :
    (a.verdict ty name inst = .ok true ∧ Wanted a.recordData a.offset ty.code name inst ∧
      ¬ NotWanted a.recordData a.offset typeCodes ty.code name inst) ∨
    (a.verdict ty name inst = .ok false ∧ NotWanted a.recordData a.offset typeCodes ty.code name inst ∧
      ¬ Wanted a.recordData a.offset ty.code name inst) ∨
    (∃ e, a.verdict ty name inst = .err e ∧ (∀ p t, e ≠ .attributeNotFound p t) ∧
      ¬ Wanted a.recordData a.offset ty.code name inst ∧
      ¬ NotWanted a.recordData a.offset typeCodes ty.code name inst) := by
  unfold Attr.verdict
  rw [Attr.ty_eq hv.header]
  cases ht : AttrType.ofCode (field a.recordData a.offset 4) with
  | none =>
    right; right
    refine ⟨_, rfl, by intro p t; simp, ?_, ?_⟩
    · intro hw
      rw [AttrType.ofCode_eq_some.2 hw.ty] at ht; cases ht
    · rintro ⟨hk, _⟩
      obtain ⟨t, hk⟩ := (typeCodes_iff _).1 hk
      rw [AttrType.ofCode_eq_some.2 hk] at ht; cases ht
  | some t =>
    have htc := AttrType.ofCode_eq_some.1 ht
    have hk : field a.recordData a.offset 4 ∈ typeCodes := (typeCodes_iff _).2 ⟨t, htc⟩
    simp only [Res.ofOption, Res.bind_ok]
    by_cases hty : t = ty
    · subst hty
      simp only [ne_eq, not_true, if_false]
      have hinst : ∀ i, inst = some i → a.instMatches inst =
          .ok (field a.recordData (a.offset + 14) 2 == i) := by
        rintro i rfl
        simp only [Attr.instMatches, Attr.inst_eq hv.header]; rfl
      have main : (∀ i, inst = some i → field a.recordData (a.offset + 14) 2 = i) →
          a.instMatches inst = .ok true := by
        intro h
        cases inst with
        | none => rfl
        | some i => rw [hinst i rfl, h i rfl]; simp
      by_cases hi : ∀ i, inst = some i → field a.recordData (a.offset + 14) 2 = i
      · rw [main hi]
        simp only [Res.bind_ok, Bool.not_true, Bool.false_eq_true, if_false]
        cases name with
        | none =>
          left
          refine ⟨rfl, ⟨htc, hi, by simp⟩, ?_⟩
          rintro ⟨_, h | ⟨i, h1, h2⟩ | ⟨s, s', h, _⟩⟩
          · exact h htc
          · exact h2 (hi i h1)
          · cases h
        | some s =>
          simp only [Attr.nameMatches]
          cases hn : a.name with
          | ok b =>
            have hnb := Attr.nameIs_of_name hv.header hv.inside hn
            simp only [Res.bind_ok, Res.pure_eq]
            by_cases hs : u16s b = s
            · left
              refine ⟨by simp [hs], ⟨htc, hi, ?_⟩, ?_⟩
              · intro s' hs'; injection hs' with hs'; subst hs'; rw [← hs]; exact hnb
              · rintro ⟨_, h | ⟨i, h1, h2⟩ | ⟨s1, s', h, h1, h2⟩⟩
                · exact h htc
                · exact h2 (hi i h1)
                · injection h with h; subst h
                  exact h2 (by rw [NameIs_unique h1 hnb, hs])
            · right; left
              refine ⟨by simp [hs], ⟨hk, Or.inr (Or.inr ⟨s, _, rfl, hnb, hs⟩)⟩, ?_⟩
              intro hw
              exact hs (NameIs_unique hnb (hw.name s rfl))
          | err e =>
            right; right
            refine ⟨e, rfl, ?_, ?_, ?_⟩
            · intro p t' he; subst he
              rw [Attr.name_eq hv.header _ _ _ rfl rfl rfl hv.inside] at hn
              split at hn
              · cases hn
              split at hn
              · cases hn
              split at hn <;> cases hn
            · intro hw
              obtain ⟨b, hb⟩ := NameIs_lt hv (hw.name s rfl)
              rw [hn] at hb; cases hb
            · rintro ⟨_, h | ⟨i, h1, h2⟩ | ⟨s1, s', h, h1, h2⟩⟩
              · exact h htc
              · exact h2 (hi i h1)
              · obtain ⟨b, hb⟩ := NameIs_lt hv h1
                rw [hn] at hb; cases hb
          | panic p => have := Attr.name_safe hv; rw [hn] at this; exact this.elim
          | diverge => have := Attr.name_safe hv; rw [hn] at this; exact this.elim
      · right; left
        obtain ⟨i, hi1, hi2⟩ : ∃ i, inst = some i ∧ field a.recordData (a.offset + 14) 2 ≠ i := by
          cases inst with
          | none => exact absurd (by simp) hi
          | some i =>
            refine ⟨i, rfl, fun h => hi ?_⟩
            intro j hj; injection hj with hj; rw [← hj]; exact h
        rw [hinst i hi1]
        have : (field a.recordData (a.offset + 14) 2 == i) = false := by simpa using hi2
        simp only [this, Res.bind_ok, Bool.not_false, if_true]
        exact ⟨trivial, ⟨hk, Or.inr (Or.inl ⟨i, hi1, hi2⟩)⟩, fun hw => hi2 (hw.inst i hi1)⟩
    · right; left
      simp only [ne_eq, hty, not_false_eq_true, if_true]
      have : field a.recordData a.offset 4 ≠ ty.code := by
        rw [htc]; intro h; exact hty (AttrType.code_inj h)
      exact ⟨trivial, ⟨hk, Or.inl this⟩, fun hw => this hw.ty⟩

theorem AttrsRaw.find_step (ty : AttrType) (name : Option (List Nat)) (inst : Option Nat) (fuel : Nat)
    (it it' : AttrsRaw) (a : Attr) (h : it.next = (some (.ok a), it')) :
    AttrsRaw.find ty name inst (fuel + 1) it = (do
      let ok ← a.verdict ty name inst
      if ok then .ok a else AttrsRaw.find ty name inst fuel it') := by
  simp only [AttrsRaw.find, h, Attr.verdict, Res.bind_ok]
  cases a.ty with
  | ok t =>
    simp only [Res.bind_ok]
    split
    · rfl
    · cases a.instMatches inst with
      | ok im =>
        simp only [Res.bind_ok]
        cases im with
        | false => rfl
        | true =>
          simp only [Bool.not_true, Bool.false_eq_true, if_false]
          cases a.nameMatches name with
          | ok nm => cases nm <;> rfl
          | err e => rfl
          | panic p => rfl
          | diverge => rfl
      | err e => rfl
      | panic p => rfl
      | diverge => rfl
  | err e => rfl
  | panic p => rfl
  | diverge => rfl

/-- What the lookup does from a cursor on. -/
theorem AttrsRaw.find_spec (f : NFile) (stop : Nat) (ty : AttrType) (name : Option (List Nat))
    (inst : Option Nat) : ∀ (fuel off : Nat), f.recordData.length - off < fuel →
    (∃ pre off', Chain f.recordData off pre off' ∧ (∃ len, AttrAt f.recordData off' len) ∧
      AttrsRaw.find ty name inst fuel ⟨f, off, stop⟩ = .ok ⟨f, off', none⟩ ∧
      Wanted f.recordData off' ty.code name inst ∧
      ∀ p ∈ pre, NotWanted f.recordData p typeCodes ty.code name inst) ∨
    (∃ offs fin, Chain f.recordData off offs fin ∧ EndsAt f.recordData fin ∧
      AttrsRaw.find ty name inst fuel ⟨f, off, stop⟩ = .err (.attributeNotFound f.position ty) ∧
      ∀ p ∈ offs, NotWanted f.recordData p typeCodes ty.code name inst) ∨
    (∃ pre off' e, Chain f.recordData off pre off' ∧ ¬ EndsAt f.recordData off' ∧
      AttrsRaw.find ty name inst fuel ⟨f, off, stop⟩ = .err e ∧
      (∀ p t, e ≠ .attributeNotFound p t) ∧
      (∀ p ∈ pre, NotWanted f.recordData p typeCodes ty.code name inst) ∧
      ((∀ len, ¬ AttrAt f.recordData off' len) ∨
        (¬ Wanted f.recordData off' ty.code name inst ∧
          ¬ NotWanted f.recordData off' typeCodes ty.code name inst))) := by
  intro fuel
  induction fuel with
  | zero => intro off h; omega
  | succ fuel ih =>
    intro off hf
    rcases AttrsRaw.next_cases ⟨f, off, stop⟩ with ⟨h1, h2⟩ | ⟨len, h1, h2⟩ | ⟨h1, h2, h3⟩
    · right; left
      refine ⟨[], off, .nil off, h1, ?_, by simp⟩
      simp only [AttrsRaw.find, h2]
    · rw [AttrsRaw.find_step _ _ _ _ _ _ _ h2]
      have hlen := h1.length
      have hv : (Attr.mk f off none).Valid :=
        ⟨by have := h1.header; have := h1.inside; unfold Attr.HeaderIn; simp only [Attr.recordData] at *; omega,
         by have := h1.header; simp only [Attr.recordData] at *; omega,
         by have := h1.inside; simp only [Attr.recordData] at *; omega⟩
      rcases Attr.verdict_cases hv ty name inst with ⟨hb, hw, _⟩ | ⟨hb, hw, _⟩ | ⟨e, hb, he, hw, hnw⟩
      · left
        exact ⟨[], off, .nil off, ⟨len, h1⟩, by simp only [hb, Res.bind_ok, if_true], hw, by simp⟩
      · simp only [hb, Res.bind_ok, Bool.false_eq_true, if_false]
        have hfl : f.recordData.length - (off + len) < fuel := by
          have := h1.header; have := h1.inside; simp only at *; omega
        have hcons : ∀ {p}, ∀ {pre : List Nat}, (∀ p ∈ pre,
            NotWanted f.recordData p typeCodes ty.code name inst) → p ∈ off :: pre →
            NotWanted f.recordData p typeCodes ty.code name inst := by
          intro p pre hp hm
          rcases List.mem_cons.1 hm with rfl | hm
          · exact hw
          · exact hp p hm
        rcases ih (off + len) hfl with ⟨pre, off', hc, ha, hr, hwt, hp⟩ | ⟨offs, fin, hc, he, hr, hp⟩ |
            ⟨pre, off', e, hc, hne, hr, he, hp, hx⟩
        · left
          exact ⟨off :: pre, off', .cons h1 hc, ha, hr, hwt, fun p hm => hcons hp hm⟩
        · right; left
          exact ⟨off :: offs, fin, .cons h1 hc, he, hr, fun p hm => hcons hp hm⟩
        · right; right
          exact ⟨off :: pre, off', e, .cons h1 hc, hne, hr, he, fun p hm => hcons hp hm, hx⟩
      · right; right
        refine ⟨[], off, e, .nil off, fun hend => hend.noAttr len h1, by simp only [hb, Res.bind_err],
          he, by simp, Or.inr ⟨hw, hnw⟩⟩
    · right; right
      refine ⟨[], off, _, .nil off, h1, by simp only [AttrsRaw.find, h3, Res.bind_err]; rfl, ?_, by simp,
        Or.inl h2⟩
      intro p t
      unfold lengthError
      repeat' split
      all_goals simp

theorem NFile.findResidentAttribute_eq (f : NFile) (h : 32 ≤ f.recordData.length) (ty : AttrType)
    (name : Option (List Nat)) (inst : Option Nat) :
    f.findResidentAttribute ty name inst = AttrsRaw.find ty name inst (f.recordData.length + 1)
      ⟨f, field f.recordData 20 2, field f.recordData 24 4⟩ := by
  unfold NFile.findResidentAttribute
  rw [NFile.attributesRaw_eq f h, Res.bind_ok]

theorem Spec.Chain.split {d : Bytes} {off : Nat} {pre : List Nat} {mid : Nat} {offs : List Nat} {fin : Nat}
    (h : Chain d off pre mid) (h' : Chain d off offs fin)
    (P Q : Nat → Prop) (hmid : (∃ len, AttrAt d mid len) ∧ P mid) (hpre : ∀ p ∈ pre, Q p)
    (hoffs : ∀ p ∈ offs, Q p) (hPQ : ∀ p, P p → ¬ Q p) (hend : ∀ len, ¬ AttrAt d fin len) : False := by
  induction h generalizing offs with
  | nil off =>
    cases h' with
    | nil => obtain ⟨⟨len, h⟩, _⟩ := hmid; exact hend len h
    | cons hx t => exact hPQ _ hmid.2 (hoffs _ (by simp))
  | cons hx t ih =>
    cases h' with
    | nil => exact hend _ hx
    | cons hx' t' =>
      have : _ = _ := hx.length.symm.trans hx'.length
      subst this
      exact ih t' hmid (fun p hp => hpre p (by simp [hp])) (fun p hp => hoffs p (by simp [hp]))

theorem Spec.Wanted.not_notWanted {d : Bytes} {off : Nat} {known : List Nat} {code : Nat}
    {name : Option (List Nat)} {inst : Option Nat}
    (h : Wanted d off code name inst) : ¬ NotWanted d off known code name inst := by
  rintro ⟨_, h1 | ⟨i, h1, h2⟩ | ⟨s, s', h1, h2, h3⟩⟩
  · exact h1 h.ty
  · exact h2 (h.inst i h1)
  · exact h3 (NameIs_unique h2 (h.name s h1))

theorem Spec.Chain.split' {d : Bytes} {off : Nat} {pre pre' : List Nat} {mid mid' : Nat}
    (h : Chain d off pre mid) (h' : Chain d off pre' mid')
    (P Q : Nat → Prop) (hmid : P mid) (hmid' : P mid') (hpre : ∀ p ∈ pre, Q p)
    (hpre' : ∀ p ∈ pre', Q p) (hPQ : ∀ p, P p → ¬ Q p) : pre = pre' ∧ mid = mid' := by
  induction h generalizing pre' with
  | nil off =>
    cases h' with
    | nil => exact ⟨rfl, rfl⟩
    | cons hx t => exact absurd (hpre' _ (by simp)) (hPQ _ hmid)
  | cons hx t ih =>
    cases h' with
    | nil => exact absurd (hpre _ (by simp)) (hPQ _ hmid')
    | cons hx' t' =>
      have : _ = _ := hx.length.symm.trans hx'.length
      subst this
      obtain ⟨a, b⟩ := ih t' hmid (fun p hp => hpre p (by simp [hp]))
        (fun p hp => hpre' p (by simp [hp]))
      exact ⟨by rw [a], b⟩

/-- C22: the lookup succeeds with an attribute iff that attribute is the first requested one in
record order and all attributes before it are sound. -/
theorem C22_first_match (f : NFile) (h : 32 ≤ f.recordData.length) (ty : AttrType)
    (name : Option (List Nat)) (inst : Option Nat) (a : Attr) :
    f.findResidentAttribute ty name inst = .ok a ↔
      ∃ pre off, Chain f.recordData (field f.recordData 20 2) pre off ∧
        (∃ len, AttrAt f.recordData off len) ∧ a = ⟨f, off, none⟩ ∧
        Wanted f.recordData off ty.code name inst ∧
        ∀ p ∈ pre, NotWanted f.recordData p typeCodes ty.code name inst := by
  rw [NFile.findResidentAttribute_eq f h]
  constructor
  · intro hr
    rcases AttrsRaw.find_spec f (field f.recordData 24 4) ty name inst (f.recordData.length + 1)
      (field f.recordData 20 2) (by omega) with ⟨pre, off', hc, ha, hr', hw, hp⟩ | ⟨_, _, _, _, hr', _⟩ |
      ⟨_, _, _, _, _, hr', _⟩
    · rw [hr'] at hr; injection hr with hr
      exact ⟨pre, off', hc, ha, hr.symm, hw, hp⟩
    · rw [hr'] at hr; cases hr
    · rw [hr'] at hr; cases hr
  · rintro ⟨pre, off, hc, ha, rfl, hw, hp⟩
    rcases AttrsRaw.find_spec f (field f.recordData 24 4) ty name inst (f.recordData.length + 1)
      (field f.recordData 20 2) (by omega) with ⟨pre', off', hc', ha', hr', hw', hp'⟩ |
      ⟨offs, fin, hc', he, hr', hp'⟩ | ⟨pre', off', e, hc', hne, hr', he, hp', hx⟩
    · obtain ⟨rfl, rfl⟩ := hc.split' hc'
        (fun p => Wanted f.recordData p ty.code name inst)
        (fun p => NotWanted f.recordData p typeCodes ty.code name inst)
        hw hw' hp hp' (fun p hp => hp.not_notWanted)
      exact hr'
    · exact (hc.split hc' (fun p => Wanted f.recordData p ty.code name inst)
        (fun p => NotWanted f.recordData p typeCodes ty.code name inst)
        ⟨ha, hw⟩ hp hp' (fun p hp => hp.not_notWanted) he.noAttr).elim
    · exfalso
      rcases hx with hx | ⟨hx1, hx2⟩
      · exact hc.split hc' (fun p => Wanted f.recordData p ty.code name inst)
          (fun p => NotWanted f.recordData p typeCodes ty.code name inst)
          ⟨ha, hw⟩ hp hp' (fun p hp => hp.not_notWanted) hx
      · by_cases hal : ∃ len, AttrAt f.recordData off' len
        · obtain ⟨rfl, rfl⟩ := hc.split' hc'
            (fun p => ¬ NotWanted f.recordData p typeCodes ty.code name inst)
            (fun p => NotWanted f.recordData p typeCodes ty.code name inst)
            hw.not_notWanted hx2 hp hp' (fun p hp => hp)
          exact hx1 hw
        · exact hc.split hc' (fun p => Wanted f.recordData p ty.code name inst)
            (fun p => NotWanted f.recordData p typeCodes ty.code name inst)
            ⟨ha, hw⟩ hp hp' (fun p hp => hp.not_notWanted) (fun len hl => hal ⟨len, hl⟩)

/-- C22: the lookup reports `AttributeNotFound` iff the record ends properly and every attribute is
sound and not the requested one. -/
theorem C22_not_found_iff (f : NFile) (h : 32 ≤ f.recordData.length) (ty : AttrType)
    (name : Option (List Nat)) (inst : Option Nat) (p : Pos) (t : AttrType) :
    f.findResidentAttribute ty name inst = .err (.attributeNotFound p t) ↔
      p = f.position ∧ t = ty ∧
      ∃ offs fin, Chain f.recordData (field f.recordData 20 2) offs fin ∧ EndsAt f.recordData fin ∧
        ∀ q ∈ offs, NotWanted f.recordData q typeCodes ty.code name inst := by
  rw [NFile.findResidentAttribute_eq f h]
  rcases AttrsRaw.find_spec f (field f.recordData 24 4) ty name inst (f.recordData.length + 1)
      (field f.recordData 20 2) (by omega) with ⟨pre', off', hc', ha', hr', hw', hp'⟩ |
      ⟨offs, fin, hc', he, hr', hp'⟩ | ⟨pre', off', e, hc', hne, hr', he, hp', hx⟩
  · rw [hr']
    simp only [reduceCtorEq, false_iff]
    rintro ⟨_, _, offs, fin, hc, he, hp⟩
    exact hc'.split hc (fun p => Wanted f.recordData p ty.code name inst)
      (fun p => NotWanted f.recordData p typeCodes ty.code name inst)
      ⟨ha', hw'⟩ hp' hp (fun p hp => hp.not_notWanted) he.noAttr
  · rw [hr']
    simp only [Res.err.injEq, Err.attributeNotFound.injEq]
    constructor
    · rintro ⟨rfl, rfl⟩; exact ⟨rfl, rfl, offs, fin, hc', he, hp'⟩
    · rintro ⟨rfl, rfl, _⟩; exact ⟨rfl, rfl⟩
  · rw [hr']
    constructor
    · intro h; injection h with h; exact absurd h (he p t)
    · rintro ⟨_, _, offs, fin, hc, hend, hp⟩
      exfalso
      by_cases hal : ∃ len, AttrAt f.recordData off' len
      · rcases hx with hx | ⟨hx1, hx2⟩
        · obtain ⟨len, hl⟩ := hal; exact hx len hl
        · exact hc'.split hc (fun p => ¬ NotWanted f.recordData p typeCodes ty.code name inst)
            (fun p => NotWanted f.recordData p typeCodes ty.code name inst)
            ⟨hal, hx2⟩ hp' hp (fun p hp => hp) hend.noAttr
      · have hno : ∀ len, ¬ AttrAt f.recordData off' len := fun len hl => hal ⟨len, hl⟩
        obtain ⟨_, rfl⟩ := hc'.unique hc hno hend.noAttr
        exact hne hend

/-- C22: the lookup always comes to an end and never panics. -/
theorem C22_no_panic (f : NFile) (h : 32 ≤ f.recordData.length) (ty : AttrType)
    (name : Option (List Nat)) (inst : Option Nat) : (f.findResidentAttribute ty name inst).Safe := by
  rw [NFile.findResidentAttribute_eq f h]
  rcases AttrsRaw.find_spec f (field f.recordData 24 4) ty name inst (f.recordData.length + 1)
      (field f.recordData 20 2) (by omega) with ⟨_, _, _, _, hr, _⟩ | ⟨_, _, _, _, hr, _⟩ |
      ⟨_, _, _, _, _, hr, _⟩ <;> rw [hr] <;> trivial

/-- The example record of C18: the first unnamed $DATA attribute is the one at 80, the one before it
is passed over; and no attribute has type $BITMAP. -/
example : ∃ pre off, Chain (exRecord 112) (field (exRecord 112) 20 2) pre off ∧
    (∃ len, AttrAt (exRecord 112) off len) ∧ off = 80 ∧
    Wanted (exRecord 112) off AttrType.data.code (some []) (some 1) ∧
    ∀ p ∈ pre, NotWanted (exRecord 112) p typeCodes AttrType.data.code (some []) (some 1) := by
  refine ⟨[56], 80, ?_, ⟨24, by decide, by decide, by decide, by decide⟩, rfl,
    ⟨by decide, ?_, ?_⟩, ?_⟩
  · exact .cons (len := 24) ⟨by decide, by decide, by decide, by decide⟩ (.nil 80)
  · rintro _ ⟨⟩; decide
  · rintro _ ⟨⟩; exact ⟨by simp, by decide⟩
  · intro p hp
    rw [List.mem_singleton] at hp
    subst hp
    exact ⟨by decide, Or.inl (by decide)⟩

/-- The three theorems on this record: the attribute at 80 is found, and there is no bitmap. -/
example : ∃ a, NFile.findResidentAttribute ⟨exNtfs, ⟨exRecord 112, some 512⟩, 7⟩ .data (some []) (some 1) = .ok a ∧ a.offset = 80 :=
  ⟨_, (C22_first_match ⟨exNtfs, ⟨exRecord 112, some 512⟩, 7⟩ (by decide) .data (some []) (some 1) ⟨_, 80, none⟩).2
    ⟨[56], 80, .cons (len := 24) ⟨by decide, by decide, by decide, by decide⟩ (.nil 80),
      ⟨24, by decide, by decide, by decide, by decide⟩, rfl,
      ⟨by decide, by rintro _ ⟨⟩; decide, by rintro _ ⟨⟩; exact ⟨by simp, by decide⟩⟩,
      by intro p hp; rw [List.mem_singleton] at hp; subst hp; exact ⟨by decide, Or.inl (by decide)⟩⟩, rfl⟩
example := (C22_not_found_iff ⟨exNtfs, ⟨exRecord 112, some 512⟩, 7⟩ (by decide) .bitmap none none (some 512) .bitmap).2
  ⟨rfl, rfl, [56, 80], 104, .cons (len := 24) ⟨by decide, by decide, by decide, by decide⟩
      (.cons (len := 24) ⟨by decide, by decide, by decide, by decide⟩ (.nil 104)), by intro _; decide,
    by intro p hp
       simp only [List.mem_cons, List.not_mem_nil, or_false] at hp
       rcases hp with rfl | rfl <;> exact ⟨by decide, Or.inl (by decide)⟩⟩
example := C22_no_panic ⟨exNtfs, ⟨exRecord 112, some 512⟩, 7⟩ (by decide) .bitmap none none

end NT
