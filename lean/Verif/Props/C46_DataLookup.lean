import Verif.Lemmas.Walk
import Verif.Props.C31_UpcaseOrder

/-! C46: the default data stream, named data streams, and the lookup of attributes by type and name. -/

namespace NT

open Spec

variable {V : View}

/-- An entry leads to at most one error. -/
theorem LoadFails.unique {ntfs : Ntfs} {img : Bytes} {mftEs : List Extent} {e : LEntry} {x y : Err}
    (h : LoadFails ntfs img mftEs e x) (h' : LoadFails ntfs img mftEs e y) : x = y := by
  have inj : ∀ {a b : Nat}, addressOf ntfs.clusterSize mftEs (e.record * ntfs.fileRecordSize) = some a →
      addressOf ntfs.clusterSize mftEs (e.record * ntfs.fileRecordSize) = some b → a = b := by
    intro a b h1 h2
    rw [h1] at h2
    exact Option.some.inj h2
  cases h with
  | tooBig h1 => cases h' <;> first | rfl | omega
  | outside h1 h2 =>
    cases h' with
    | tooBig => rfl
    | outside => rfl
    | image a _ g => rw [h2] at g; cases g
    | record a _ _ g => rw [h2] at g; cases g
    | noAttribute a _ _ _ _ _ g => rw [h2] at g; cases g
  | image a h1 h2 h3 =>
    cases h' with
    | tooBig => omega
    | outside _ g => rw [h2] at g; cases g
    | image => rfl
    | record b _ _ g g2 => have := inj h2 g; omega
    | noAttribute b _ _ _ _ _ g g2 => have := inj h2 g; omega
  | record a _ h1 h2 h3 h4 =>
    cases h' with
    | tooBig => omega
    | outside _ g => rw [h2] at g; cases g
    | image b _ g g2 => have := inj h2 g; omega
    | record b _ _ g g2 g3 =>
      have := inj h2 g
      subst this
      rw [h4] at g3
      injection g3
    | noAttribute b _ _ _ _ _ g g2 g3 =>
      have := inj h2 g
      subst this
      rw [h4] at g3
      cases g3
  | noAttribute a file t offs fin h1 h2 h3 h4 h5 =>
    cases h' with
    | tooBig => omega
    | outside _ g => rw [h2] at g; cases g
    | image b _ g g2 => have := inj h2 g; omega
    | record b _ _ g g2 g3 =>
      have := inj h2 g
      subst this
      rw [h4] at g3
      cases g3
    | noAttribute b _ _ _ _ _ g g2 g3 g4 =>
      have := inj h2 g
      subst this
      rw [h4] at g3
      injection g3 with g3
      subst g3
      rw [h5] at g4
      rw [AttrType.code_inj g4]

theorem Step.Fails.unique {s : Step} {x y : Err} (h : s.Fails V x) (h' : s.Fails V y) : x = y := by
  cases s with
  | own o => exact h.elim
  | entry e after => exact LoadFails.unique h h'

/-- What a lookup gives if it goes through the attributes `steps` in order, passes over those with
`Miss`, stops with an error at those with `Bad` and at those that cannot be loaded, and stops at those
with `Hit`; `r` is what comes behind the last attribute. -/
structure FirstHit {α : Type} (V : View) (Hit : Step → NFile → Nat → α → Prop)
    (Miss : NFile → Nat → Prop) (Bad : NFile → Nat → Err → Prop) (steps : List Step)
    (r : Res (Option AttrItem)) (q : Res (Option α)) : Prop where
  /-- what is found is the first hit -/
  found : ∀ x, q = .ok (some x) → ∃ pre s post file off, steps = pre ++ s :: post ∧
    (∀ p ∈ pre, ∃ f o, p.At V f o ∧ Miss f o) ∧ s.At V file off ∧ Hit s file off x
  /-- the first hit is found -/
  finds : ∀ pre s post file off x, steps = pre ++ s :: post →
    (∀ p ∈ pre, ∃ f o, p.At V f o ∧ Miss f o) → s.At V file off → Hit s file off x →
    ∃ y, q = .ok (some y) ∧ Hit s file off y
  /-- nothing is found exactly if everything is passed over and the iteration ends properly -/
  none_iff : q = .ok none ↔ r = .ok none ∧ ∀ p ∈ steps, ∃ f o, p.At V f o ∧ Miss f o
  /-- an error is that of the first attribute that is not passed over, or that of the end -/
  err_iff : ∀ x, q = .err x ↔
    (∃ pre s post, steps = pre ++ s :: post ∧ (∀ p ∈ pre, ∃ f o, p.At V f o ∧ Miss f o) ∧
      (s.Fails V x ∨ ∃ file off, s.At V file off ∧ Bad file off x)) ∨
    (r = .err x ∧ ∀ p ∈ steps, ∃ f o, p.At V f o ∧ Miss f o)
  /-- there is no other outcome -/
  safe : (∃ o, q = .ok o) ∨ ∃ x, q = .err x

/-- The possible results of the body of the loop for one step. -/
inductive Verdict {α : Type} (V : View) (Hit : Step → NFile → Nat → α → Prop)
    (Miss : NFile → Nat → Prop) (Bad : NFile → Nat → Err → Prop) (s : Step) : Res (Option α) → Prop
  | miss (file : NFile) (off : Nat) : s.At V file off → Miss file off → Verdict V Hit Miss Bad s (.ok none)
  | hit (file : NFile) (off : Nat) (x : α) : s.At V file off → Hit s file off x →
      Verdict V Hit Miss Bad s (.ok (some x))
  | bad (file : NFile) (off : Nat) (x : Err) : s.At V file off → Bad file off x →
      Verdict V Hit Miss Bad s (.err x)
  | fails (x : Err) : s.Fails V x → Verdict V Hit Miss Bad s (.err x)

theorem split_unique {α : Type} {P : α → Prop} {a b c d : List α} {s t : α}
    (h : a ++ s :: b = c ++ t :: d) (ha : ∀ x ∈ a, P x) (hc : ∀ x ∈ c, P x) (hs : ¬ P s) (ht : ¬ P t) :
    a = c ∧ s = t ∧ b = d := by
  induction a generalizing c with
  | nil =>
    cases c with
    | nil => simpa using h
    | cons y c =>
      injection h with h _
      exact absurd (hc y (by simp)) (by rw [← h]; exact hs)
  | cons x a ih =>
    cases c with
    | nil =>
      injection h with h _
      exact absurd (ha x (by simp)) (by rw [h]; exact ht)
    | cons y c =>
      injection h with h h'
      obtain ⟨i1, i2, i3⟩ := ih h' (fun x hx => ha x (by simp [hx])) (fun x hx => hc x (by simp [hx]))
      exact ⟨by rw [h, i1], i2, i3⟩

/-- A lookup in a file finds the first hit. -/
theorem NFile.search_firstHit {α : Type} (pick : AttrItem → Attr → StM Dev (Option α))
    (Hit : Step → NFile → Nat → α → Prop) (Miss : NFile → Nat → Prop) (Bad : NFile → Nat → Err → Prop)
    (hmh : ∀ s f o x, Miss f o → ¬ Hit s f o x) (hmb : ∀ f o x, Miss f o → ¬ Bad f o x)
    (hhb : ∀ s f o x y, Hit s f o x → ¬ Bad f o y) (hbb : ∀ f o x y, Bad f o x → Bad f o y → x = y)
    {steps : List Step} {r : Res (Option AttrItem)} (h : Flattened V steps r)
    (hpick : ∀ s ∈ steps, ∀ i file, s.Result V (.ok (some i)) → s.At V file i.offset →
      (Attr.mk file i.offset i.list).Valid →
      (field file.recordData (i.offset + 8) 1 = 0 → i.list = none) → ∀ d : Dev, d.Ok V.img →
      ∃ q d', pick i ⟨file, i.offset, i.list⟩ d = (q, d') ∧ d'.Ok V.img ∧ Verdict V Hit Miss Bad s q)
    (fuel : Nat) (hfuel : steps.length < fuel) (d : Dev) (hd : d.Ok V.img) :
    ∃ q d', V.base.search pick fuel d = (q, d') ∧ d'.Ok V.img ∧ FirstHit V Hit Miss Bad steps r q := by
  obtain ⟨q, d', h1, h2, h3⟩ := NFile.search_spec pick (Verdict V Hit Miss Bad) h
    (fun s _ x hx => .fails x hx) hpick fuel hfuel d hd
  refine ⟨q, d', h1, h2, ?_⟩
  have hkn := h.known
  -- a passed step is nothing else
  have excl : ∀ s ∈ steps, ∀ f o, s.At V f o → Miss f o →
      (∀ f' o' x, s.At V f' o' → ¬ Hit s f' o' x) ∧ (∀ f' o' x, s.At V f' o' → ¬ Bad f' o' x) ∧
      ∀ x, ¬ s.Fails V x := by
    intro s hs f o ha hm
    refine ⟨?_, ?_, fun x => ha.not_fails⟩
    · intro f' o' x ha'
      obtain ⟨rfl, rfl⟩ := ha.unique ha' (hkn s hs)
      exact hmh s _ _ x hm
    · intro f' o' x ha'
      obtain ⟨rfl, rfl⟩ := ha.unique ha' (hkn s hs)
      exact hmb _ _ x hm
  have passed : ∀ p, Verdict V Hit Miss Bad p (.ok none) → ∃ f o, p.At V f o ∧ Miss f o := by
    intro p hp
    cases hp with
    | miss f o h1 h2 => exact ⟨f, o, h1, h2⟩
  let P : Step → Prop := fun p => ∃ f o, p.At V f o ∧ Miss f o
  -- a step that is hit, bad or fails is not passed
  have nhit : ∀ s ∈ steps, ∀ f o x, s.At V f o → Hit s f o x → ¬ P s := by
    rintro s hs f o x ha hh ⟨f', o', ha', hm⟩
    exact (excl s hs f' o' ha' hm).1 f o x ha hh
  have nbad : ∀ s ∈ steps, ∀ x, (s.Fails V x ∨ ∃ f o, s.At V f o ∧ Bad f o x) → ¬ P s := by
    rintro s hs x hx ⟨f', o', ha', hm⟩
    rcases hx with hx | ⟨f, o, ha, hb⟩
    · exact ha'.not_fails hx
    · exact (excl s hs f' o' ha' hm).2.1 f o x ha hb
  rcases h3 with ⟨pre, s, post, e1, e2, e3, e4⟩ | ⟨e1, e2⟩
  · have hpre : ∀ p ∈ pre, P p := fun p hp => passed p (e2 p hp)
    have hs : s ∈ steps := by rw [e1]; simp
    have hnP : ¬ P s := by
      cases e4 with
      | miss => exact absurd rfl e3
      | hit f o x ha hh => exact nhit s hs f o x ha hh
      | bad f o x ha hb => exact nbad s hs x (.inr ⟨f, o, ha, hb⟩)
      | fails x hx => exact nbad s hs x (.inl hx)
    have huniq : ∀ pre' s' post', steps = pre' ++ s' :: post' → (∀ p ∈ pre', P p) → ¬ P s' → s' = s := by
      intro pre' s' post' g1 g2 g3
      rw [e1] at g1
      exact (split_unique g1 hpre g2 hnP g3).2.1.symm
    refine ⟨?_, ?_, ?_, ?_, ?_⟩
    · rintro x rfl
      cases e4 with
      | hit f o _ ha hh => exact ⟨pre, s, post, f, o, e1, hpre, ha, hh⟩
    · intro pre' s' post' f o x g1 g2 g3 g4
      have hs' : s' ∈ steps := by rw [g1]; simp
      have := huniq pre' s' post' g1 g2 (nhit s' hs' f o x g3 g4)
      subst this
      cases e4 with
      | miss => exact absurd rfl e3
      | hit f' o' y ha hh =>
        obtain ⟨rfl, rfl⟩ := ha.unique g3 (hkn _ hs)
        exact ⟨y, rfl, hh⟩
      | bad f' o' x ha hb =>
        obtain ⟨rfl, rfl⟩ := ha.unique g3 (hkn _ hs)
        exact absurd hb (hhb _ _ _ _ _ g4)
      | fails x hx => exact absurd hx g3.not_fails
    · exact ⟨fun hq => absurd hq e3, fun hq => absurd (hq.2 s hs) hnP⟩
    · intro x
      constructor
      · rintro rfl
        refine .inl ⟨pre, s, post, e1, hpre, ?_⟩
        cases e4 with
        | bad f o _ ha hb => exact .inr ⟨f, o, ha, hb⟩
        | fails _ hx => exact .inl hx
      · rintro (⟨pre', s', post', g1, g2, g3⟩ | ⟨_, g2⟩)
        · have hs' : s' ∈ steps := by rw [g1]; simp
          have := huniq pre' s' post' g1 g2 (nbad s' hs' x g3)
          subst this
          cases e4 with
          | miss => exact absurd rfl e3
          | hit f o y ha hh =>
            rcases g3 with g3 | ⟨f', o', ha', hb'⟩
            · exact absurd g3 ha.not_fails
            · obtain ⟨rfl, rfl⟩ := ha.unique ha' (hkn _ hs)
              exact absurd hb' (hhb _ _ _ _ _ hh)
          | bad f o y ha hb =>
            rcases g3 with g3 | ⟨f', o', ha', hb'⟩
            · exact absurd g3 ha.not_fails
            · obtain ⟨rfl, rfl⟩ := ha.unique ha' (hkn _ hs)
              rw [hbb _ _ _ _ hb hb']
          | fails y hy =>
            rcases g3 with g3 | ⟨f', o', ha', hb'⟩
            · rw [hy.unique g3]
            · exact absurd hy ha'.not_fails
        · exact absurd (g2 s hs) hnP
    · cases e4 with
      | miss => exact .inl ⟨_, rfl⟩
      | hit => exact .inl ⟨_, rfl⟩
      | bad => exact .inr ⟨_, rfl⟩
      | fails => exact .inr ⟨_, rfl⟩
  · have hall : ∀ p ∈ steps, P p := fun p hp => passed p (e1 p hp)
    have hq : ∀ y, q ≠ .ok (some y) := by
      rintro y rfl
      rcases e2 with ⟨_, h⟩ | ⟨_, _, h⟩ <;> cases h
    refine ⟨fun x hx => absurd hx (hq x), ?_, ?_, ?_, ?_⟩
    · intro pre' s' post' f o x g1 _ g3 g4
      have hs' : s' ∈ steps := by rw [g1]; simp
      exact absurd (hall s' hs') (nhit s' hs' f o x g3 g4)
    · rcases e2 with ⟨rfl, rfl⟩ | ⟨x, rfl, rfl⟩
      · exact ⟨fun _ => ⟨rfl, hall⟩, fun _ => rfl⟩
      · exact ⟨fun h => (by cases h), fun h => (by cases h.1)⟩
    · intro x
      constructor
      · rintro rfl
        rcases e2 with ⟨_, h⟩ | ⟨y, hr, h⟩
        · cases h
        · cases h
          exact .inr ⟨hr, hall⟩
      · rintro (⟨pre', s', post', g1, _, g3⟩ | ⟨g1, _⟩)
        · have hs' : s' ∈ steps := by rw [g1]; simp
          exact absurd (hall s' hs') (nbad s' hs' x g3)
        · rcases e2 with ⟨h, _⟩ | ⟨y, h, rfl⟩
          · rw [g1] at h; cases h
          · rw [g1] at h; cases h; rfl
    · rcases e2 with ⟨_, rfl⟩ | ⟨y, _, rfl⟩
      · exact .inl ⟨_, rfl⟩
      · exact .inr ⟨_, rfl⟩

/-- The attribute at `off` has a type code that is not an attribute type; the error for it. -/
def TypeBad (file : NFile) (off : Nat) (x : Err) : Prop :=
  field file.recordData off 4 ∉ typeCodes ∧
    x = .unsupportedAttributeType (Pos.add file.position off) (field file.recordData off 4)

/-- The name of the attribute at `off` is not inside the attribute; the error for it. -/
def NameBad (file : NFile) (off : Nat) (x : Err) : Prop :=
  let start := field file.recordData (off + 10) 2
  let count := field file.recordData (off + 9) 1
  let len := field file.recordData (off + 4) 4
  start ≠ 0 ∧ count ≠ 0 ∧ len < start + count * 2 ∧
    x = if len ≤ start then .invalidAttributeNameOffset (Pos.add file.position off) start len
      else .invalidAttributeNameLength (Pos.add file.position off) (start + count * 2) len

theorem NameBad.not_nameIs {file : NFile} {off : Nat} {x : Err} (h : NameBad file off x) (s : List Nat) :
    ¬ NameIs file.recordData off s := by
  obtain ⟨h1, h2, h3, _⟩ := h
  rintro ⟨_, g⟩
  rw [if_neg (by omega)] at g
  omega

theorem nameIs_unique {d : Bytes} {off : Nat} {s s' : List Nat} (h : NameIs d off s)
    (h' : NameIs d off s') : s = s' := by
  obtain ⟨hu, h⟩ := h
  obtain ⟨hu', h'⟩ := h'
  split at h
  · rename_i h0
    rw [if_pos h0] at h'
    rw [h, h']
  · rename_i h0
    rw [if_neg h0] at h'
    rw [← u16s_flatMap s hu, ← u16s_flatMap s' hu', ← h.2, ← h'.2]

theorem Attr.ty_bad {a : Attr} (h : a.HeaderIn) (hb : field a.recordData a.offset 4 ∉ typeCodes) :
    a.ty = .err (.unsupportedAttributeType a.position (field a.recordData a.offset 4)) := by
  rw [Attr.ty_eq h]
  cases hof : AttrType.ofCode (field a.recordData a.offset 4) with
  | none => rfl
  | some t => exact absurd ((typeCodes_iff _).2 ⟨t, AttrType.ofCode_eq_some.1 hof⟩) hb

theorem Attr.name_cases {a : Attr} (h : a.Valid) :
    (∃ b s, a.name = .ok b ∧ u16s b = s ∧ NameIs a.recordData a.offset s ∧ (b = [] ↔ s = [])) ∨
    ∃ x, a.name = .err x ∧ NameBad a.file a.offset x := by
  have e := Attr.name_eq h.header _ _ _ rfl rfl rfl h.inside
  have hok : ∀ b, a.name = .ok b → (b = [] ↔ u16s b = []) := by
    intro b hb
    constructor
    · rintro rfl; rfl
    · intro hu
      have hl : ∃ n, b.length = n * 2 := by
        rw [e] at hb
        split at hb
        · injection hb with hb; subst hb; exact ⟨0, rfl⟩
        split at hb
        · cases hb
        split at hb
        · cases hb
        injection hb with hb
        refine ⟨field a.recordData (a.offset + 9) 1, ?_⟩
        have := h.inside
        rw [← hb, List.length_take, List.length_drop]
        omega
      obtain ⟨n, hn⟩ := hl
      have := flatMap_u16s b n hn
      rw [hu] at this
      exact this.symm
  by_cases h0 : field a.recordData (a.offset + 10) 2 = 0 ∨ field a.recordData (a.offset + 9) 1 = 0
  · rw [if_pos h0] at e
    exact .inl ⟨_, _, e, rfl, Attr.nameIs_of_name h.header h.inside e, hok _ e⟩
  · rw [if_neg h0] at e
    have hlt : field a.recordData (a.offset + 4) 4 ≤ field a.recordData (a.offset + 10) 2 →
        field a.recordData (a.offset + 4) 4 < field a.recordData (a.offset + 10) 2 +
          field a.recordData (a.offset + 9) 1 * 2 := by omega
    split at e
    · rename_i h1
      exact .inr ⟨_, e, fun h => h0 (.inl h), fun h => h0 (.inr h), hlt h1, (if_pos h1).symm⟩
    · rename_i h1
      split at e
      · rename_i h2
        exact .inr ⟨_, e, fun h => h0 (.inl h), fun h => h0 (.inr h), h2, (if_neg h1).symm⟩
      · exact .inl ⟨_, _, e, rfl, Attr.nameIs_of_name h.header h.inside e, hok _ e⟩

/-- A stream with the name `nm` is what `data(asked)` asks for: both names are empty, or both are the
same in upper case. -/
def StreamMatch (n : Ntfs) (asked nm : List Nat) : Prop :=
  if asked = [] then nm = []
  else ∃ t u, n.upcaseTable = some t ∧ Upper t nm u ∧ Upper t asked u

/-- The item is for a data attribute with a matching name. -/
def DataHit (V : View) (asked : List Nat) (s : Step) (file : NFile) (off : Nat) (i : AttrItem) : Prop :=
  s.Result V (.ok (some i)) ∧ i.offset = off ∧ field file.recordData off 4 = 0x80 ∧
    ∃ nm, NameIs file.recordData off nm ∧ StreamMatch V.base.ntfs asked nm

/-- An attribute of another type, or a data attribute with another name. -/
def DataMiss (V : View) (asked : List Nat) (file : NFile) (off : Nat) : Prop :=
  field file.recordData off 4 ∈ typeCodes ∧
    (field file.recordData off 4 = 0x80 →
      ∃ nm, NameIs file.recordData off nm ∧ ¬ StreamMatch V.base.ntfs asked nm)

/-- An attribute of no known type, or a data attribute whose name is not inside it. -/
def DataBad (file : NFile) (off : Nat) (x : Err) : Prop :=
  TypeBad file off x ∨ (field file.recordData off 4 = 0x80 ∧ NameBad file off x)

/-- C46: `data(asked)`, for every sequence of flattened attributes: it gives the first data attribute
with a matching name, `None` iff there is none and all attributes can be loaded and parsed, and an
error iff an attribute before the first match cannot be loaded or parsed. For a non-empty name the
upcase table must have been read. -/
theorem C46_data {steps : List Step} {r : Res (Option AttrItem)} (h : Flattened V steps r)
    (asked : List Nat) (ha : Units asked)
    (ht : asked ≠ [] → ∃ t, V.base.ntfs.upcaseTable = some t ∧ TableOk t)
    (fuel : Nat) (hfuel : steps.length < fuel) (d : Dev) (hd : d.Ok V.img) :
    ∃ q d', V.base.dataItem asked fuel d = (q, d') ∧ d'.Ok V.img ∧
      FirstHit V (DataHit V asked) (DataMiss V asked) DataBad steps r q := by
  unfold NFile.dataItem
  refine NFile.search_firstHit _ _ _ _ ?_ ?_ ?_ ?_ h ?_ fuel hfuel d hd
  · rintro s f o i ⟨h1, h2⟩ ⟨g1, g2, g3, nm, g4, g5⟩
    obtain ⟨nm', h3, h4⟩ := h2 g3
    rw [nameIs_unique g4 h3] at g5
    exact h4 g5
  · rintro f o x ⟨h1, h2⟩ (⟨g1, _⟩ | ⟨g1, g2⟩)
    · exact g1 h1
    · obtain ⟨nm, h3, _⟩ := h2 g1
      exact g2.not_nameIs nm h3
  · rintro s f o i x ⟨g1, g2, g3, nm, g4, g5⟩ (⟨h1, _⟩ | ⟨_, h2⟩)
    · rw [g3] at h1; exact h1 (by decide)
    · exact h2.not_nameIs nm g4
  · rintro f o x y (⟨h1, rfl⟩ | ⟨h1, h2⟩) (⟨g1, rfl⟩ | ⟨g1, g2⟩)
    · rfl
    · rw [g1] at h1; exact absurd (by decide) h1
    · rw [h1] at g1; exact absurd (by decide) g1
    · obtain ⟨_, _, _, rfl⟩ := h2
      obtain ⟨_, _, _, rfl⟩ := g2
      rfl
  · intro s hs i file hres hat hv hl d hd
    refine ⟨_, d, rfl, hd, ?_⟩
    show Verdict V _ _ _ s (pickData V.base.ntfs asked i ⟨file, i.offset, i.list⟩)
    unfold pickData
    by_cases hty : field file.recordData i.offset 4 ∈ typeCodes
    case neg =>
      rw [Attr.ty_bad hv.header hty]
      exact .bad file i.offset _ hat (.inl ⟨hty, rfl⟩)
    obtain ⟨t, htc⟩ := (typeCodes_iff _).1 hty
    rw [(Attr.ty_ok_iff (a := ⟨file, i.offset, i.list⟩) hv.header).2 htc, Res.bind_ok]
    by_cases htd : t = .data
    case neg =>
      rw [if_pos htd]
      refine .miss file i.offset hat ⟨hty, fun h => absurd ?_ htd⟩
      rw [htc] at h
      exact AttrType.code_inj (t := .data) h
    subst htd
    rw [if_neg (by simp)]
    rcases Attr.name_cases hv with ⟨b, nm, e1, e2, e3, e4⟩ | ⟨x, e1, e2⟩
    · rw [e1, Res.bind_ok]
      have hm : (StreamMatch V.base.ntfs asked nm ∧ streamNameEqual V.base.ntfs asked b = .ok true) ∨
          (¬ StreamMatch V.base.ntfs asked nm ∧ streamNameEqual V.base.ntfs asked b = .ok false) := by
        unfold StreamMatch streamNameEqual
        by_cases hn : asked = []
        · rw [if_pos hn, if_pos hn]
          by_cases hb : b = []
          · exact .inl ⟨e4.1 hb, by rw [hb]; rfl⟩
          · exact .inr ⟨fun h => hb (e4.2 h), by cases b with
              | nil => exact absurd rfl hb
              | cons => rfl⟩
        · rw [if_neg hn, if_neg hn]
          obtain ⟨tab, ht1, ht2⟩ := ht hn
          obtain ⟨u, hu⟩ := upper_exists tab nm ht2 e3.1
          obtain ⟨v, hv'⟩ := upper_exists tab asked ht2 ha
          obtain ⟨o, ho⟩ := C31_total V.base.ntfs tab ht1 ht2 nm asked e3.1 ha
          have hc := (C31_lexicographic V.base.ntfs tab ht1 nm asked u v hu hv').2.1
          rw [e2, ho, Res.bind_ok]
          by_cases huv : u = v
          · left
            have := hc.2 huv
            rw [ho] at this
            injection this with this
            subst this
            exact ⟨⟨tab, v, ht1, by rw [← huv]; exact hu, hv'⟩, rfl⟩
          · right
            constructor
            · rintro ⟨tab', w, g1, g2, g3⟩
              rw [ht1] at g1
              injection g1 with g1
              subst g1
              exact huv (by rw [upper_unique hu g2, upper_unique hv' g3])
            · have hne : o ≠ .eq := by
                rintro rfl
                exact huv (hc.1 ho)
              cases o <;> first | rfl | exact absurd rfl hne
      rcases hm with ⟨m1, m2⟩ | ⟨m1, m2⟩
      · rw [m2, Res.bind_ok]
        exact .hit file i.offset i hat ⟨hres, rfl, htc, nm, e3, m1⟩
      · rw [m2, Res.bind_ok]
        exact .miss file i.offset hat ⟨hty, fun _ => ⟨nm, e3, m1⟩⟩
    · rw [e1]
      exact .bad file i.offset x hat (.inr ⟨htc, e2⟩)

/-- The attribute has the type and (if one is given) exactly the name. -/
def AttrHit (V : View) (ty : AttrType) (name : Option (List Nat)) (s : Step) (file : NFile) (off : Nat)
    (i : AttrItem) : Prop :=
  s.Result V (.ok (some i)) ∧ i.offset = off ∧ Wanted file.recordData off ty.code name none

/-- An attribute of no known type, or one of the type whose name is needed but not inside it. -/
def AttrBad (ty : AttrType) (name : Option (List Nat)) (file : NFile) (off : Nat) (x : Err) : Prop :=
  TypeBad file off x ∨ (field file.recordData off 4 = ty.code ∧ name ≠ none ∧ NameBad file off x)

/-- The search behind `find_attribute`. -/
theorem find_firstHit {steps : List Step} {r : Res (Option AttrItem)} (h : Flattened V steps r)
    (ty : AttrType) (name : Option (List Nat)) (fuel : Nat) (hfuel : steps.length < fuel) (d : Dev)
    (hd : d.Ok V.img) :
    ∃ q d', V.base.search (fun item a => StM.lift (pickAttribute ty name item a)) fuel d = (q, d') ∧
      d'.Ok V.img ∧
      FirstHit V (AttrHit V ty name) (fun f o => NotWanted f.recordData o typeCodes ty.code name none)
        (AttrBad ty name) steps r q := by
  refine NFile.search_firstHit _ _ _ _ ?_ ?_ ?_ ?_ h ?_ fuel hfuel d hd
  · rintro s f o i ⟨h1, h2⟩ ⟨_, _, g⟩
    rcases h2 with h2 | ⟨_, h2, _⟩ | ⟨s, s', h2, h3, h4⟩
    · exact h2 g.ty
    · cases h2
    · exact h4 (nameIs_unique h3 (g.name s h2))
  · rintro f o x ⟨h1, h2⟩ (⟨g1, _⟩ | ⟨g1, g2, g3⟩)
    · exact g1 h1
    · rcases h2 with h2 | ⟨_, h2, _⟩ | ⟨s, s', h2, h3, h4⟩
      · exact h2 g1
      · cases h2
      · exact g3.not_nameIs _ h3
  · rintro s f o i x ⟨_, _, g⟩ (⟨h1, _⟩ | ⟨h1, h2, h3⟩)
    · exact h1 ((typeCodes_iff _).2 ⟨ty, g.ty⟩)
    · cases name with
      | none => exact h2 rfl
      | some nm => exact h3.not_nameIs nm (g.name nm rfl)
  · rintro f o x y (⟨h1, rfl⟩ | ⟨h1, _, h2⟩) (⟨g1, rfl⟩ | ⟨g1, _, g2⟩)
    · rfl
    · exact absurd ((typeCodes_iff _).2 ⟨ty, g1⟩) h1
    · exact absurd ((typeCodes_iff _).2 ⟨ty, h1⟩) g1
    · obtain ⟨_, _, _, rfl⟩ := h2
      obtain ⟨_, _, _, rfl⟩ := g2
      rfl
  · intro s hs i file hres hat hv hl d hd
    refine ⟨_, d, rfl, hd, ?_⟩
    show Verdict V _ _ _ s (pickAttribute ty name i ⟨file, i.offset, i.list⟩)
    unfold pickAttribute
    by_cases hty : field file.recordData i.offset 4 ∈ typeCodes
    case neg =>
      rw [Attr.ty_bad hv.header hty]
      exact .bad file i.offset _ hat (.inl ⟨hty, rfl⟩)
    obtain ⟨t, htc⟩ := (typeCodes_iff _).1 hty
    rw [(Attr.ty_ok_iff (a := ⟨file, i.offset, i.list⟩) hv.header).2 htc, Res.bind_ok]
    by_cases htd : t = ty
    case neg =>
      rw [if_pos htd]
      refine .miss file i.offset hat ⟨hty, .inl fun h => htd ?_⟩
      rw [htc] at h
      exact AttrType.code_inj h
    subst htd
    rw [if_neg (by simp)]
    unfold Attr.nameMatches
    cases name with
    | none =>
      dsimp only
      rw [Res.bind_ok]
      exact .hit file i.offset i hat ⟨hres, rfl, htc, by simp, by simp⟩
    | some nm =>
      dsimp only
      rcases Attr.name_cases hv with ⟨b, nm', e1, e2, e3, e4⟩ | ⟨x, e1, e2⟩
      · rw [e1, Res.bind_ok, e2]
        by_cases hn : nm' = nm
        · subst hn
          have : (nm' == nm') = true := beq_self_eq_true nm'
          rw [this]
          exact .hit file i.offset i hat ⟨hres, rfl, htc, by simp, by rintro _ ⟨⟩; exact e3⟩
        · have : (nm' == nm) = false := by simpa using hn
          rw [this]
          exact .miss file i.offset hat ⟨hty, .inr (.inr ⟨nm, nm', rfl, e3, hn⟩)⟩
      · rw [e1]
        exact .bad file i.offset x hat (.inr ⟨htc, by simp, e2⟩)

/-- The result of `find_attribute` in terms of the search. -/
theorem NFile.findAttribute_eq (f : NFile) (ty : AttrType) (name : Option (List Nat)) (fuel : Nat)
    (d d' : Dev) (q : Res (Option AttrItem))
    (h : f.search (fun item a => StM.lift (pickAttribute ty name item a)) fuel d = (q, d')) :
    f.findAttribute ty name fuel d = (q.bind fun o =>
      Res.ofOption (.attributeNotFound f.position ty) o, d') := by
  unfold NFile.findAttribute
  rw [StM.bind_apply, h]
  cases q with
  | ok o => cases o <;> rfl
  | err => rfl
  | panic => rfl
  | diverge => rfl

/-- C46, the lookup by type and exact name (`find_attribute`): it gives the first attribute with this
type and name, "attribute not found" if there is none, and the error of the first attribute that
cannot be loaded or parsed before it. -/
theorem C46_find_attribute {steps : List Step} {r : Res (Option AttrItem)} (h : Flattened V steps r)
    (ty : AttrType) (name : Option (List Nat)) (fuel : Nat) (hfuel : steps.length < fuel) (d : Dev)
    (hd : d.Ok V.img) :
    ∃ q d', d'.Ok V.img ∧
      FirstHit V (AttrHit V ty name) (fun f o => NotWanted f.recordData o typeCodes ty.code name none)
        (AttrBad ty name) steps r q ∧
      (∀ i, q = .ok (some i) → V.base.findAttribute ty name fuel d = (.ok i, d')) ∧
      (q = .ok none → V.base.findAttribute ty name fuel d =
        (.err (.attributeNotFound V.base.position ty), d')) ∧
      (∀ x, q = .err x → V.base.findAttribute ty name fuel d = (.err x, d')) := by
  obtain ⟨q, d', h1, h2, h3⟩ := find_firstHit h ty name fuel hfuel d hd
  have e := NFile.findAttribute_eq V.base ty name fuel d d' q h1
  refine ⟨q, d', h2, h3, ?_, ?_, ?_⟩
  · rintro i rfl; rw [e]; rfl
  · rintro rfl; rw [e]; rfl
  · rintro x rfl; rw [e]; rfl

/-- Without the upcase table, a lookup of a named stream panics at the first data attribute with a
sound name. -/
theorem C46_panics_without_table {steps : List Step} {r : Res (Option AttrItem)}
    (h : Flattened V steps r) (asked : List Nat) (hne : asked ≠ [])
    (ht : V.base.ntfs.upcaseTable = none) (s : Step) (post : List Step) (hs : steps = s :: post)
    (file : NFile) (off : Nat) (hat : s.At V file off)
    (hty : field file.recordData off 4 = 0x80) (nm : List Nat) (hn : NameIs file.recordData off nm) (fuel : Nat) (d : Dev) (hd : d.Ok V.img) :
    ∃ d', V.base.dataItem asked (fuel + 1) d = (.panic .unwrap, d') := by
  obtain ⟨it, h1, h2⟩ := h.walk
  rw [hs] at h2
  obtain ⟨r', it', d', g1, g2, g3, g4⟩ := h2 d hd
  rcases Step.result_cases g2 with ⟨j, rfl⟩ | ⟨x, rfl, hx⟩
  case inr => exact absurd hx hat.not_fails
  obtain ⟨file', k1, k2, k3, k4⟩ := Step.item g2
  obtain ⟨rfl, hj⟩ := k1.unique hat (h.known s (by rw [hs]; simp))
  refine ⟨d', ?_⟩
  unfold NFile.dataItem NFile.search
  rw [h1]
  dsimp only
  have hp : pickData V.base.ntfs asked j ⟨file', j.offset, j.list⟩ = .panic .unwrap := by
    unfold pickData
    rw [(Attr.ty_ok_iff (a := ⟨file', j.offset, j.list⟩) k3.header (t := .data)).2
      (by rw [hj]; exact hty), Res.bind_ok, if_neg (by simp)]
    rw [← hj] at hn
    obtain ⟨b, e1, e2⟩ := Attr.name_of_nameIs (a := ⟨file', j.offset, j.list⟩) k3.header k3.inside hn
    rw [e1, Res.bind_ok]
    unfold streamNameEqual
    rw [if_neg hne, C31_panics_without_table _ ht]
    rfl
  rw [Attrs.search, StM.bind_of_ok g1]
  dsimp only
  rw [StM.bind_of_ok (a := ⟨file', j.offset, j.list⟩) (s' := (it', d')) (by rw [StM.lift_apply, k2]),
    StM.bind_apply]
  unfold StM.onDev
  dsimp only
  rw [StM.lift_apply, hp]

/-- A record with a data attribute called "aB" at 56 and an unnamed one at 88. -/
def exStreams : Bytes :=
  [0x46, 0x49, 0x4C, 0x45, 48, 0, 1, 0,  0, 0, 0, 0, 0, 0, 0, 0,
   1, 0, 1, 0, 56, 0, 1, 0,  120, 0, 0, 0, 120, 0, 0, 0,
   0, 0, 0, 0, 0, 0, 0, 0,  3, 0, 0, 0, 0, 0, 0, 0,
   0, 0, 0, 0, 0, 0, 0, 0,
   0x80, 0, 0, 0, 32, 0, 0, 0,  0, 2, 24, 0, 0, 0, 0, 0,  0, 0, 0, 0, 28, 0, 0, 0, 97, 0, 66, 0, 1, 2, 3, 4,
   0x80, 0, 0, 0, 24, 0, 0, 0,  0, 0, 0, 0, 0, 0, 1, 0,  2, 0, 0, 0, 22, 0, 7, 9,
   0xFF, 0xFF, 0xFF, 0xFF, 0, 0, 0, 0]

/-- The file of this record, on a volume whose upcase table has been read. -/
def exStreamsView : View :=
  { ntfs := { exNtfs with upcaseTable := some exTable }
    img := []
    mftEs := []
    base := ⟨{ exNtfs with upcaseTable := some exTable }, ⟨exStreams, some 512⟩, 7⟩ }

theorem exStreams_flattened : Flattened exStreamsView [.own 56, .own 88] (.ok none) :=
  .plain (V := exStreamsView) [56, 88] 112 (.ok none) (by decide)
    (.cons (len := 32) ⟨by decide, by decide, by decide, by decide⟩
      (.cons (len := 24) ⟨by decide, by decide, by decide, by decide⟩ (.nil 112)))
    (by decide) (.inl ⟨fun _ => by decide, rfl⟩)

/-- `data("")` gives the second attribute, `data("Ab")` the first one. -/
example (d : Dev) (hd : d.Ok []) :
    (∃ i d', exStreamsView.base.dataItem [] 3 d = (.ok (some i), d') ∧ i.offset = 88) ∧
    (∃ i d', exStreamsView.base.dataItem [65, 98] 3 d = (.ok (some i), d') ∧ i.offset = 56) := by
  have a1 : Step.At exStreamsView (.own 56) exStreamsView.base 56 :=
    ⟨rfl, rfl, 32, by decide, by decide, by decide, by decide⟩
  have a2 : Step.At exStreamsView (.own 88) exStreamsView.base 88 :=
    ⟨rfl, rfl, 24, by decide, by decide, by decide, by decide⟩
  have n1 : NameIs exStreamsView.base.recordData 56 [97, 66] := ⟨by decide, by decide⟩
  have n2 : NameIs exStreamsView.base.recordData 88 [] := ⟨by decide, by decide⟩
  constructor
  · obtain ⟨q, d', e, _, hq⟩ := C46_data exStreams_flattened [] (by simp [Units]) (by simp) 3
      (by decide) d hd
    obtain ⟨y, rfl, hy⟩ := hq.finds [.own 56] (.own 88) [] exStreamsView.base 88
      ⟨exStreamsView.base, none, 88, none⟩ rfl
      (by
        intro p hp
        simp only [List.mem_cons, List.not_mem_nil, or_false] at hp
        subst hp
        exact ⟨_, _, a1, by decide, fun _ => ⟨_, n1, by unfold StreamMatch; simp⟩⟩)
      a2 ⟨⟨rfl, a2.2.2⟩, rfl, by decide, _, n2, by unfold StreamMatch; simp⟩
    exact ⟨y, d', e, hy.2.1⟩
  · obtain ⟨q, d', e, _, hq⟩ := C46_data exStreams_flattened [65, 98] (by simp [Units])
      (fun _ => ⟨exTable, rfl, exTable_ok⟩) 3 (by decide) d hd
    obtain ⟨y, rfl, hy⟩ := hq.finds [] (.own 56) [.own 88] exStreamsView.base 56
      ⟨exStreamsView.base, none, 56, none⟩ rfl (by simp)
      a1 ⟨⟨rfl, a1.2.2⟩, rfl, by decide, _, n1, by
        unfold StreamMatch
        rw [if_neg (by simp)]
        exact ⟨exTable, [65, 66], rfl,
          .cons (exTable_get 97 (by decide)) (.cons (exTable_get 66 (by decide)) .nil),
          .cons (exTable_get 65 (by decide)) (.cons (exTable_get 98 (by decide)) .nil)⟩⟩
    exact ⟨y, d', e, hy.2.1⟩

/-- The example of C50 as a view. -/
def exFlatView : View := ⟨exFlatNtfs, exFlatImage, [⟨8, some 1⟩], exFlatFile 3⟩

theorem exFlatView_flattened : Flattened exFlatView [.entry (exFlatEntry 1 97) [exFlatEntry 2 98]]
    (.ok none) := by
  obtain ⟨h1, h2, h3, h4, _⟩ := exFlatChain
  exact .listed (V := exFlatView) exFlatMft [] [] 56 72 128 _ _ (.ok none) rfl h4 h1 (by simp) h2 exFlatList
    (by
      intro e he
      simp only [List.mem_cons, List.not_mem_nil, or_false] at he
      rcases he with rfl | rfl <;> exact ⟨.data, rfl⟩)
    exFlatGroups h3

set_option maxRecDepth 20000 in
/-- A consequence of C50_negation for lookups: the stream called `b` is in the attribute list of the
file and its attribute is intact, but looking it up gives "attribute not found". The theorems above
are about the attributes that the flattened iteration shows. -/
theorem C46_hidden_stream : ∃ (V : View) (steps : List Step) (e : LEntry) (file : NFile) (off : Nat),
    Flattened V steps (.ok none) ∧ ListStored V.ntfs V.img V.base 56 72 [exFlatEntry 1 97, e] ∧
    Loads V.ntfs V.img V.mftEs e file off ∧ field file.recordData off 4 = 0x80 ∧
    NameIs file.recordData off [98] ∧
    ∀ fuel, 1 < fuel → ∀ d : Dev, d.Ok V.img → ∃ d', V.base.findAttribute .data (some [98]) fuel d =
      (.err (.attributeNotFound V.base.position .data), d') := by
  refine ⟨exFlatView, _, exFlatEntry 2 98, exFlatFile 2, 56, exFlatView_flattened, exFlatList,
    exFlatLoads.2, by decide, ⟨by decide, by decide⟩, ?_⟩
  intro fuel hf d hd
  obtain ⟨q, d', h1, h2, h3, h4, h5⟩ := C46_find_attribute exFlatView_flattened .data (some [98]) fuel
    (by simpa using hf) d hd
  have hq : q = .ok none := by
    refine h2.none_iff.2 ⟨rfl, ?_⟩
    intro p hp
    simp only [List.mem_cons, List.not_mem_nil, or_false] at hp
    subst hp
    exact ⟨exFlatFile 1, 56, exFlatLoads.1, by decide, .inr (.inr ⟨[98], [97], rfl,
      ⟨by decide, by decide⟩, by decide⟩)⟩
  exact ⟨d', h4 hq⟩

/-- The other theorems of this file on that record; without the upcase table, a lookup by name panics at its first attribute. -/
example (d : Dev) (hd : d.Ok []) := C46_find_attribute exStreams_flattened .data (some [97, 66]) 3 (by decide) d hd
example (d : Dev) (hd : d.Ok []) := C46_panics_without_table (V := ⟨exNtfs, [], [], ⟨exNtfs, ⟨exStreams, some 512⟩, 7⟩⟩)
  (.plain (V := ⟨exNtfs, [], [], ⟨exNtfs, ⟨exStreams, some 512⟩, 7⟩⟩) [56, 88] 112 (.ok none) (by decide)
    (.cons (len := 32) ⟨by decide, by decide, by decide, by decide⟩
      (.cons (len := 24) ⟨by decide, by decide, by decide, by decide⟩ (.nil 112)))
    (by decide) (.inl ⟨fun _ => by decide, rfl⟩)) [65, 98] (by simp) rfl (.own 56) [.own 88] rfl _ 56
  ⟨rfl, rfl, 32, by decide, by decide, by decide, by decide⟩ (by decide) [97, 66] ⟨by decide, by decide⟩ 7 d hd

end NT
