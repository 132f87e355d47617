import Verif.Lemmas.LocalShell

/-! Operations depend only on the bytes of the structures they work on: the shell from its start. Opening a volume for the
shell changes the volume (its upcase table), which changes none of the places that are used. -/

namespace NT

open Spec

/-- The file of the same record, as one of the volume `m`. -/
def NFile.move (m : Ntfs) (f : NFile) : NFile := ⟨m, f.record, f.number⟩

/-- The attribute of the same record. -/
def Attr.move (m : Ntfs) (a : Attr) : Attr := ⟨a.file.move m, a.offset, a.list⟩

/-- The iterator over the attributes of the same record. -/
def AttrsRaw.move (m : Ntfs) (it : AttrsRaw) : AttrsRaw := ⟨it.file.move m, it.start, it.stop⟩

theorem AttrsRaw.next_move (m : Ntfs) (it : AttrsRaw) {a : Attr} {it' : AttrsRaw} (h : it.next = (some (.ok a), it')) :
    (it.move m).next = (some (.ok (a.move m)), it'.move m) := by
  unfold AttrsRaw.next at h ⊢
  change (match getRange it.file.recordData it.start (it.start + 4) with
    | none => (none, it.move m)
    | some b =>
      if leNat b = AttrType.end_.code then (none, it.move m)
      else
        match Attr.new (it.file.move m) it.start none with
        | .ok a =>
          match a.attributeLength with
          | .ok len => (some (.ok a), { it.move m with start := it.start + len })
          | .err e => (some (.err e), it.move m)
          | .panic p => (some (.panic p), it.move m)
          | .diverge => (some .diverge, it.move m)
        | .err e => (some (.err e), it.move m)
        | .panic p => (some (.panic p), it.move m)
        | .diverge => (some .diverge, it.move m) : Option (Res Attr) × AttrsRaw) = _
  cases hg : getRange it.file.recordData it.start (it.start + 4) with
  | none => rw [hg] at h; cases h
  | some b =>
    rw [hg] at h
    dsimp only at h ⊢
    split at h
    · cases h
    · rename_i hne
      rw [if_neg hne]
      have hnew : Attr.new (it.file.move m) it.start none = (match Attr.new it.file it.start none with
          | .ok a => .ok (a.move m)
          | .err e => .err e
          | .panic p => .panic p
          | .diverge => .diverge) := by
        unfold Attr.new
        dsimp only
        change (do Attr.validateAttributeLength ⟨it.file, it.start, none⟩; pure _ : Res Attr) = _
        cases Attr.validateAttributeLength ⟨it.file, it.start, none⟩ <;> rfl
      rw [hnew]
      cases ha : Attr.new it.file it.start none with
      | ok x =>
        rw [ha] at h
        dsimp only at h ⊢
        change (match x.attributeLength with
          | .ok len => (some (.ok (x.move m)), { it.move m with start := it.start + len })
          | .err e => (some (.err e), it.move m)
          | .panic p => (some (.panic p), it.move m)
          | .diverge => (some .diverge, it.move m) : Option (Res Attr) × AttrsRaw) = _
        cases hl : x.attributeLength with
        | ok len => rw [hl] at h; cases h; rfl
        | err e => rw [hl] at h; cases h
        | panic e => rw [hl] at h; cases h
        | diverge => rw [hl] at h; cases h
      | err e => rw [ha] at h; cases h
      | panic e => rw [ha] at h; cases h
      | diverge => rw [ha] at h; cases h

/-- A step that shows nothing leaves the iterator where it is. -/
theorem AttrsRaw.next_stays (it : AttrsRaw) : (∃ a it', it.next = (some (.ok a), it')) ∨ it.next.2 = it := by
  unfold AttrsRaw.next
  cases getRange it.file.recordData it.start (it.start + 4) with
  | none => exact .inr rfl
  | some b =>
    dsimp only
    split
    · exact .inr rfl
    · cases ha : Attr.new it.file it.start none with
      | ok a =>
        dsimp only
        cases a.attributeLength with
        | ok len => exact .inl ⟨_, _, rfl⟩
        | err e => exact .inr rfl
        | panic e => exact .inr rfl
        | diverge => exact .inr rfl
      | err e => exact .inr rfl
      | panic e => exact .inr rfl
      | diverge => exact .inr rfl

theorem Spec.Shows.move (m : Ntfs) {it : AttrsRaw} {a : Attr} (h : Shows it a) : Shows (it.move m) (a.move m) := by
  induction h with
  | here e => exact .here (AttrsRaw.next_move m _ e)
  | @later it a _ ih =>
    rcases it.next_stays with ⟨x, it', e⟩ | e
    · rw [e] at ih
      refine .later ?_
      rw [AttrsRaw.next_move m _ e]
      exact ih
    · rw [e] at ih
      exact ih

theorem Spec.Own.move (m : Ntfs) {f : NFile} {o : Nat} (h : Own f o) : Own (f.move m) o := by
  obtain ⟨it, a, h1, h2, h3⟩ := h
  refine ⟨it.move m, a.move m, ?_, h2.move m, h3⟩
  unfold NFile.attributesRaw at h1 ⊢
  simp only [Res.bind_eq_ok] at h1 ⊢
  obtain ⟨s, g1, t, g2, g3⟩ := h1
  exact ⟨s, g1, t, g2, by cases g3; rfl⟩

theorem Spec.FileIn.move {n m : Ntfs} {S : Nat → Prop} (hcs : m.clusterSize = n.clusterSize) {f : NFile}
    (h : FileIn n S f) : FileIn m S (f.move m) := by
  refine ⟨rfl, fun a ha ho data p hd => ?_⟩
  rw [hcs]
  refine h.attrs ⟨f, a.offset, a.list⟩ rfl ?_ data p ?_
  · have := ho.move f.ntfs
    exact this
  · rw [← hd]
    obtain ⟨g, o, l⟩ := a
    dsimp only at ha
    subst ha
    rfl

theorem NFile.ofBytes_move (n m : Ntfs) (data : Bytes) (p number : Nat) :
    NFile.ofBytes m data p number = (match NFile.ofBytes n data p number with
      | .ok f => .ok (f.move m)
      | .err e => .err e
      | .panic p => .panic p
      | .diverge => .diverge) := by
  unfold NFile.ofBytes
  dsimp only
  cases NFile.validateSignature { data := data, position := some p } with
  | ok u =>
    simp only [Res.bind_ok]
    cases Record.fixup { data := data, position := some p } with
    | ok r =>
      simp only [Res.bind_ok]
      change (do NFile.validateSizes ⟨n, r, number⟩; pure _ : Res NFile) = _
      cases NFile.validateSizes ⟨n, r, number⟩ <;> rfl
    | err e => rfl
    | panic e => rfl
    | diverge => rfl
  | err e => rfl
  | panic e => rfl
  | diverge => rfl

theorem NFile.new_move {n m : Ntfs} (hrs : m.fileRecordSize = n.fileRecordSize) {p number : Nat} {d d' : Dev} {f : NFile}
    (h : NFile.new m p number d = (.ok f, d')) : NFile.new n p number d = (.ok (f.move n), d') ∧ f.ntfs = m := by
  unfold NFile.new at h ⊢
  simp only [StM.bind_ok_iff] at h ⊢
  obtain ⟨u, d1, h1, b, d2, h2, h3⟩ := h
  rw [hrs] at h2
  have h4 : NFile.ofBytes m b p number = .ok f := congrArg Prod.fst h3
  have h5 : d2 = d' := congrArg Prod.snd h3
  subst h5
  rw [NFile.ofBytes_move n m] at h4
  refine ⟨⟨u, d1, h1, b, d2, h2, ?_⟩, ?_⟩
  · cases h : NFile.ofBytes n b p number with
    | ok g =>
      rw [h] at h4
      cases h4
      have : g.ntfs = n := by
        obtain ⟨_, r, _, hg, _⟩ := (NFile.ofBytes_ok_iff _ _ _ _ _).1 h
        rw [hg]
      obtain ⟨gn, gr, gk⟩ := g
      cases this
      rfl
    | err e => rw [h] at h4; cases h4
    | panic e => rw [h] at h4; cases h4
    | diverge => rw [h] at h4; cases h4
  · cases h : NFile.ofBytes n b p number with
    | ok g => rw [h] at h4; cases h4; rfl
    | err e => rw [h] at h4; cases h4
    | panic e => rw [h] at h4; cases h4
    | diverge => rw [h] at h4; cases h4

theorem AttrsRaw.find_move (m : Ntfs) {ty : AttrType} {name : Option (List Nat)} {i : Option Nat} {fuel : Nat}
    {it : AttrsRaw} {a : Attr} (h : AttrsRaw.find ty name i fuel it = .ok a) :
    AttrsRaw.find ty name i fuel (it.move m) = .ok (a.move m) := by
  induction fuel generalizing it with
  | zero => cases h
  | succ fuel ih =>
    unfold AttrsRaw.find at h ⊢
    have hm := fun x it' => AttrsRaw.next_move m it (a := x) (it' := it')
    generalize it.next = q at h hm
    obtain ⟨x, it'⟩ := q
    cases x with
    | none => cases h
    | some x =>
      dsimp only at h
      simp only [Res.bind_eq_ok] at h
      obtain ⟨b, rfl, t, ht, h⟩ := h
      rw [hm b it' rfl]
      dsimp only
      simp only [Res.bind_eq_ok]
      refine ⟨b.move m, rfl, t, ht, ?_⟩
      split at h
      · rename_i hc; rw [if_pos hc]; exact ih h
      · rename_i hc
        rw [if_neg hc]
        simp only [Res.bind_eq_ok] at h ⊢
        obtain ⟨im, him, h⟩ := h
        refine ⟨im, him, ?_⟩
        split at h
        · rename_i hc; rw [if_pos hc]; exact ih h
        · rename_i hc
          rw [if_neg hc]
          simp only [Res.bind_eq_ok] at h ⊢
          obtain ⟨nm, hnm, h⟩ := h
          refine ⟨nm, hnm, ?_⟩
          split at h
          · rename_i hc; rw [if_pos hc]; exact ih h
          · rename_i hc
            rw [if_neg hc]
            cases h
            rfl

theorem NFile.findResidentAttribute_move (m : Ntfs) {f : NFile} {ty : AttrType} {name : Option (List Nat)}
    {i : Option Nat} {a : Attr} (h : f.findResidentAttribute ty name i = .ok a) :
    (f.move m).findResidentAttribute ty name i = .ok (a.move m) := by
  unfold NFile.findResidentAttribute at h ⊢
  simp only [Res.bind_eq_ok] at h ⊢
  obtain ⟨it, h1, h⟩ := h
  refine ⟨it.move m, ?_, AttrsRaw.find_move m h⟩
  unfold NFile.attributesRaw at h1 ⊢
  simp only [Res.bind_eq_ok] at h1 ⊢
  obtain ⟨s, g1, t, g2, g3⟩ := h1
  exact ⟨s, g1, t, g2, by cases g3; rfl⟩

theorem Attr.simpleValue_move {n : Ntfs} {a : Attr} (hcs : a.file.ntfs.clusterSize = n.clusterSize) :
    (a.move n).simpleValue = a.simpleValue := by
  unfold Attr.simpleValue
  change (do if ← a.isResident then (do
      let v ← a.residentValue
      pure (SVal.res v)) else (do
      let v ← (a.move n).nonResidentValue
      pure (SVal.nonRes v)) : Res SVal) = _
  have : (a.move n).nonResidentValue = a.nonResidentValue := by
    unfold Attr.nonResidentValue
    rw [hcs]
    rfl
  rw [this]

/-- Another volume with the same layout. -/
theorem Spec.Covers.move {n m : Ntfs} {img : Bytes} {S : Nat → Prop} (h : Covers n img S)
    (hcs : m.clusterSize = n.clusterSize) (hrs : m.fileRecordSize = n.fileRecordSize)
    (hp : m.mftPosition = n.mftPosition) : Covers m img S where
  mft := fun p hp' => by rw [hrs]; exact h.mft p (hp ▸ hp')
  records := by
    intro p hp' d mft d' hd hm a v ha hv number hn k v' q h1 h2
    obtain ⟨g1, g2⟩ := NFile.new_move (n := n) hrs hm
    have hf := NFile.findResidentAttribute_in ha
    have hv' : (a.move n).simpleValue = .ok v := by
      rw [Attr.simpleValue_move (by rw [hf.1, g2, hcs]), hv]
    rw [hrs] at hn h1 ⊢
    exact h.records p (hp ▸ hp') d _ d' hd g1 _ v (NFile.findResidentAttribute_move n ha) hv' number hn k v' q h1 h2
  files := by
    intro number d f d' hd hf
    have hnt : n.file number d = (.ok (f.move n), d') ∧ f.ntfs = m := by
      unfold Ntfs.file at hf ⊢
      rw [hrs, hp] at hf
      rw [StM.bind_ok_iff] at hf ⊢
      obtain ⟨off, d1, h1, hf⟩ := hf
      cases hp' : n.mftPosition with
      | none => rw [hp'] at hf; cases congrArg Prod.fst hf
      | some p =>
        rw [hp'] at hf
        dsimp only at hf
        simp only [StM.bind_ok_iff] at hf
        obtain ⟨mft, d2, h2, a, d3, h3, v, d4, h4, hf⟩ := hf
        obtain ⟨g1, g2⟩ := NFile.new_move (n := n) hrs h2
        have ha : mft.findResidentAttribute .data none none = .ok a := congrArg Prod.fst h3
        have hv : a.simpleValue = .ok v := congrArg Prod.fst h4
        have e3 : d2 = d3 := congrArg Prod.snd h3
        have e4 : d3 = d4 := congrArg Prod.snd h4
        subst e3 e4
        have hown := NFile.findResidentAttribute_in ha
        have hv' : (a.move n).simpleValue = .ok v := by
          rw [Attr.simpleValue_move (by rw [hown.1, g2, hcs]), hv]
        have hlast : NFile.new m (match (v.seek (.start off)).2.dataPosition with | some q => q | none => 0) number d2 =
            (.ok f, d') ∧ ∃ k v' q, v.seek (.start off) = (.ok k, v') ∧ v'.dataPosition = some q := by
          generalize hs : v.seek (.start off) = x at hf
          obtain ⟨x, v'⟩ := x
          cases x with
          | ok k =>
            dsimp only at hf ⊢
            cases hq : v'.dataPosition with
            | none => rw [hq] at hf; cases congrArg Prod.fst hf
            | some q => rw [hq] at hf; exact ⟨hf, k, v', q, rfl, hq⟩
          | err e => cases congrArg Prod.fst hf
          | panic e => cases congrArg Prod.fst hf
          | diverge => cases congrArg Prod.fst hf
        obtain ⟨hlast, k, v', q, hs, hq⟩ := hlast
        rw [hs] at hlast
        dsimp only at hlast
        rw [hq] at hlast
        obtain ⟨k1, k2⟩ := NFile.new_move (n := n) hrs hlast
        refine ⟨⟨off, d1, h1, ?_⟩, k2⟩
        dsimp only
        simp only [StM.bind_ok_iff]
        refine ⟨_, _, g1, a.move n, d2, ?_, v, d2, ?_, ?_⟩
        · exact congrArg (·, d2) (NFile.findResidentAttribute_move n ha)
        · exact congrArg (·, d2) hv'
        · rw [hs]
          dsimp only
          rw [hq]
          exact k1
    have := (h.files number d _ d' hd hnt.1).move hcs
    obtain ⟨fn, fr, fk⟩ := f
    cases hnt.2
    exact this

/-! ### The start of the shell -/

theorem Shell.start_on {img : Bytes} {S : Nat → Prop} (hb : Span S 0 512)
    (hc : ∀ n d d', d.img = img → Ntfs.new d = (.ok n, d') → Covers n img S) (fuel : Nat) :
    OnD img S (fun s => Covers s.ntfs img S ∧ ShellIn s.ntfs S s) (Shell.start fuel) := by
  unfold Shell.start
  refine .bind' (Ntfs.new_on hb) fun n _ hw => ?_
  obtain ⟨d, d', hd, hn⟩ := hw
  have hcn := hc n d d' hd hn
  refine .bind (I := fun m => Covers m img S) ?_ fun m hm => ?_
  · refine (Ntfs.readUpcaseTable_on hcn fuel).witness.weaken ?_
    rintro m ⟨_, d, d', _, hr⟩
    unfold Ntfs.readUpcaseTable at hr
    simp only [StM.bind_ok_iff] at hr
    obtain ⟨t, d1, _, hr⟩ := hr
    have : m = { n with upcaseTable := some t } := by
      have := congrArg Prod.fst hr
      cases this
      rfl
    subst this
    exact hcn.move rfl rfl rfl
  · exact .bind (Ntfs.file_on hm _) fun f hf => .pure ⟨hm, rfl, fun g hg => by
      simp only [List.mem_cons, List.not_mem_nil, or_false] at hg
      subst hg
      exact hf⟩

theorem shellMain_on {img : Bytes} {S : Nat → Prop} (hb : Span S 0 512)
    (hc : ∀ n d d', d.img = img → Ntfs.new d = (.ok n, d') → Covers n img S) (fuel : Nat)
    (lines : List (Option (List Char))) (h : Host) :
    On img S mk4 (fun _ => True) (fun d => shellMain fuel lines h d) := by
  unfold shellMain
  refine On.step (Shell.start_on hb hc fuel) fun x hx _ => ?_
  cases x with
  | ok sh =>
    refine ⟨_, fun d d' h => by rw [h], ?_⟩
    dsimp only
    obtain ⟨h1, h2⟩ := hx sh rfl
    refine On.step (Session.loop_on h1 fuel lines (s := ⟨sh, h⟩) h2) ?_
    rintro ⟨x, out, s⟩ _ _
    exact ⟨_, fun d d' h => by rw [h], .done (x, out, s.host) trivial⟩
  | err e => exact ⟨_, fun d d' h => by rw [h], .done (Res.err e, [], h) trivial⟩
  | panic e => exact ⟨_, fun d d' h => by rw [h], .done (Res.panic e, [], h) trivial⟩
  | diverge => exact ⟨_, fun d d' h => by rw [h], .done (Res.diverge, [], h) trivial⟩

end NT
