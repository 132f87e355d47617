import Verif.Lemmas.Reader
import Verif.Lemmas.ProgShell
import Verif.Props.C54_Flaky
import Verif.Props.C59_Example

/-! C60: the library over any reader, and the shell over its own stack of readers. -/

namespace NT

open Spec

/-! ### What the claims are about -/

/-- What `Read + Seek` promise about one request over the bytes `img`, apart from panics: `read` delivers
some of the bytes at the position, none only at the end (or if none is asked for); `read_exact` delivers all;
otherwise there is an error. `Interrupted` is not considered (see C07). -/
def Spec.Answer (img : Bytes) (exact : Bool) (p n : Nat) : Res Bytes → Prop
  | .ok b => b = (img.drop p).take b.length ∧ b.length ≤ n ∧ (exact = true → b.length = n) ∧
      (0 < n → p < img.length → 0 < b.length)
  | .err x => ∃ e, x = .io e ∧ e ≠ .interrupted
  | .panic _ => True
  | .diverge => False

/-- A reader that keeps these promises in all states with `inv`, and stays in these states. -/
def Spec.Honest {σ : Type} (img : Bytes) (h : Bool → Nat → Nat → StM σ Bytes) (inv : σ → Prop) : Prop :=
  ∀ s, inv s → ∀ exact p n, inv (h exact p n s).2 ∧ Answer img exact p n (h exact p n s).1

/-- The requests of a computation over a reader, and their answers. -/
def Prog.asks {σ β : Type} (h : Bool → Nat → Nat → StM σ Bytes) : Prog β → σ → List (Bool × Nat × Nat × Res Bytes)
  | .done _, _ => []
  | .ask e p n k, s => (e, p, n, (h e p n s).1) :: (k (h e p n s).1).asks h (h e p n s).2

/-- The computation does what the operation does, on all devices. -/
def Implements {β : Type} (t : Prog β) (f : Dev → β × Dev) : Prop := ∀ d, d.Calm → f d = t.run Dev.ask d

/-- An operation with a state of its own, as an operation on the device only. -/
def onState {σ α : Type} (p : StM (σ × Dev) α) (s : σ) : Dev → (Res α × σ) × Dev := fun d =>
  (((p (s, d)).1, (p (s, d)).2.1), (p (s, d)).2.2)

theorem RepD.prog {α : Type} {p : StM Dev α} (h : RepD p) : ∃ t, Implements t p := by
  obtain ⟨⟨t, ht⟩, _⟩ := h
  exact ⟨t, fun d hd => ht d hd⟩

theorem RepS.prog {σ α : Type} {p : StM (σ × Dev) α} (h : RepS p) (s : σ) : ∃ t, Implements t (onState p s) := by
  obtain ⟨⟨t, ht⟩, _⟩ := h s
  refine ⟨t, fun d hd => ?_⟩
  have e : p (s, d) = mk3 (t.run Dev.ask d).1 (t.run Dev.ask d).2 := ht d hd
  unfold onState
  rw [e]

theorem Rep.prog3 {α τ : Type} {f : Dev → α × τ × Dev} (h : Rep mk3 f) :
    ∃ t, Implements t fun d => (((f d).1, (f d).2.1), (f d).2.2) := by
  obtain ⟨⟨t, ht⟩, _⟩ := h
  refine ⟨t, fun d hd => ?_⟩
  dsimp only
  rw [ht d hd]

/-- **C60**, every operation of the library uses its reader only through requests at absolute positions: it
is a `Prog`. (So the theorems below are about all of them.) -/
theorem C60_programs :
    (∃ t, Implements t Ntfs.new) ∧
    (∀ n i, ∃ t, Implements t (Ntfs.file n i)) ∧
    (∀ n, ∃ t, Implements t (Ntfs.volumeInfo n)) ∧
    (∀ n, ∃ t, Implements t (Ntfs.volumeName n)) ∧
    (∀ n fuel, ∃ t, Implements t (Ntfs.readUpcaseTable n fuel)) ∧
    (∀ it, ∃ t, Implements t (onState Attrs.next it)) ∧
    (∀ l, ∃ t, Implements t (onState AttrList.next l)) ∧
    (∀ f asked fuel, ∃ t, Implements t (NFile.dataItem f asked fuel)) ∧
    (∀ f ns parent fuel, ∃ t, Implements t (NFile.fileName f ns parent fuel)) ∧
    (∀ f fuel, ∃ t, Implements t (NFile.directoryIndex f fuel)) ∧
    (∀ a, ∃ t, Implements t (Attr.value a)) ∧
    (∀ (v : Val) n, ∃ t, Implements t (onState (Val.readExactAttached n) v)) ∧
    (∀ (v : Val) (buf : Bytes), ∃ t, Implements t fun d =>
      (((v.read buf d).1, (v.read buf d).2.1, (v.read buf d).2.2.1), (v.read buf d).2.2.2)) ∧
    (∀ (v : Val) (pos : SeekFrom), ∃ t, Implements t fun d =>
      (((v.seek pos d).1, (v.seek pos d).2.1), (v.seek pos d).2.2)) ∧
    (∀ ix fuel it, ∃ t, Implements t (onState (IndexEntries.next ix fuel) it)) ∧
    (∀ ix n name fuel, ∃ t, Implements t (Index.findName ix n name fuel)) ∧
    (∀ fuel, ∃ t, Implements t (Shell.start fuel)) ∧
    (∀ s arg fuel, ∃ t, Implements t (Shell.cd s arg fuel)) ∧
    (∀ (s : Shell) fuel, ∃ t, Implements t fun d =>
      (((s.dir fuel d).1, (s.dir fuel d).2.1), (s.dir fuel d).2.2)) ∧
    (∀ (s : Shell) arg exists' fuel, ∃ t, Implements t fun d =>
      (((s.get arg exists' fuel d).1, (s.get arg exists' fuel d).2.1), (s.get arg exists' fuel d).2.2)) ∧
    (∀ (s : Shell) arg fuel, ∃ t, Implements t fun d =>
      (((s.fileinfo arg fuel d).1, (s.fileinfo arg fuel d).2.1), (s.fileinfo arg fuel d).2.2)) ∧
    (∀ n : Ntfs, ∃ t, Implements t fun d => (((n.fsinfo d).1, (n.fsinfo d).2.1), (n.fsinfo d).2.2)) ∧
    (∀ (s : Shell) runs arg fuel, ∃ t, Implements t fun d =>
      (((s.attr runs arg fuel d).1, (s.attr runs arg fuel d).2.1), (s.attr runs arg fuel d).2.2)) := by
  refine ⟨Ntfs.new_rep.prog, fun n i => (Ntfs.file_rep n i).prog, fun n => (Ntfs.volumeInfo_rep n).prog,
    fun n => (Ntfs.volumeName_rep n).prog, fun n m => (Ntfs.readUpcaseTable_rep n m).prog,
    fun it => Attrs.next_rep.prog it, fun l => AttrList.next_rep.prog l,
    fun f a n => (NFile.dataItem_rep f a n).prog, fun f a b n => (NFile.fileName_rep f a b n).prog,
    fun f n => (NFile.directoryIndex_rep f n).prog, fun a => (Attr.value_rep a).prog,
    fun v n => (Val.readExactAttached_rep n).prog v, fun v buf => ?_,
    fun v pos => (Val.seek_rep v pos).prog3, fun ix n it => (IndexEntries.next_rep ix n).prog it,
    fun ix n name m => (Index.findName_rep ix n name m).prog, fun n => (Shell.start_rep n).prog,
    fun s a n => (Shell.cd_rep s a n).prog, fun s n => (Shell.dir_rep s n).prog3,
    fun s a x n => (Shell.get_rep s a x n).prog3, fun s a n => (Shell.fileinfo_rep s a n).prog3,
    fun n => (Ntfs.fsinfo_rep n).prog3, fun s r a n => (Shell.attr_rep s r a n).prog3⟩
  obtain ⟨⟨t, ht⟩, _⟩ := Val.read_rep v buf
  refine ⟨t, fun d hd => ?_⟩
  have e : v.read buf d = mk4 (t.run Dev.ask d).1 (t.run Dev.ask d).2 := ht d hd
  dsimp only
  rw [e]

/-! ### Any honest reader -/

/-- What a device has to do to answer like this. -/
theorem Dev.ask_answers {img : Bytes} {exact : Bool} {p n : Nat} {r : Res Bytes} (h : Answer img exact p n r)
    (hp : ∀ x, r ≠ .panic x) :
    ∃ sc : List Resp, (∀ e, .fail e ∈ sc → r = .err (.io e) ∧ e ≠ .interrupted) ∧
      ∀ pos rest, ∃ pos', Dev.ask exact p n ⟨img, pos, sc ++ rest⟩ = (r, ⟨img, pos', rest⟩) := by
  cases r with
  | panic x => exact absurd rfl (hp x)
  | diverge => exact h.elim
  | err x =>
    obtain ⟨e, rfl, he⟩ := h
    refine ⟨[.fail e], fun e' h => ?_, fun pos rest => ⟨pos, rfl⟩⟩
    obtain rfl : e' = e := by simpa using h
    exact ⟨rfl, he⟩
  | ok b =>
    obtain ⟨h1, h2, h3, h4⟩ := h
    cases exact with
    | false =>
      refine ⟨[.chunk 0, .chunk (b.length - 1)], (fun e h => (by simp at h)), fun pos rest => ⟨p + b.length, ?_⟩⟩
      have e1 : (img.drop p).take (min n (b.length - 1 + 1)) = b := by
        by_cases hb : b.length = 0
        · have : min n (b.length - 1 + 1) = 0 ∨ img.length ≤ p := by
            by_cases hn : n = 0
            · left; omega
            · right
              by_cases hp : p < img.length
              · exact absurd (h4 (by omega) hp) (by omega)
              · omega
          rw [List.eq_nil_of_length_eq_zero hb]
          rcases this with h | h
          · rw [List.eq_nil_of_length_eq_zero hb] at h
            rw [h, List.take_zero]
          · rw [List.drop_eq_nil_of_le h, List.take_nil]
        · have : min n (b.length - 1 + 1) = b.length := by omega
          rw [this]
          exact h1.symm
      show (Res.ok ((img.drop p).take (min n (b.length - 1 + 1))),
        (⟨img, p + ((img.drop p).take (min n (b.length - 1 + 1))).length, rest⟩ : Dev)) = _
      rw [e1]
    | true =>
      have hb := h3 rfl
      by_cases hn : n = 0
      · subst hn
        refine ⟨[.chunk 0], (fun e h => (by simp at h)), fun pos rest => ⟨p, ?_⟩⟩
        rw [List.eq_nil_of_length_eq_zero hb]
        rfl
      · obtain ⟨m, rfl⟩ : ∃ m, n = m + 1 := ⟨n - 1, by omega⟩
        refine ⟨[.chunk 0, .chunk m], (fun e h => (by simp at h)), fun pos rest => ⟨p + b.length, ?_⟩⟩
        have e1 : (img.drop p).take (min (m + 1) (m + 1)) = b := by
          rw [Nat.min_self, ← hb]
          exact h1.symm
        show Dev.readExactAux (m + 1 + (Resp.chunk m :: rest).length + 1) (m + 1) []
          ⟨img, p, .chunk m :: rest⟩ = _
        unfold Dev.readExactAux
        rw [if_neg (by omega)]
        have e2 : Dev.read (m + 1) ⟨img, p, .chunk m :: rest⟩ = (.ok b, ⟨img, p + b.length, rest⟩) := by
          show (Res.ok ((img.drop p).take (min (m + 1) (m + 1))),
            (⟨img, p + ((img.drop p).take (min (m + 1) (m + 1))).length, rest⟩ : Dev)) = _
          rw [e1]
        rw [e2]
        dsimp only
        rw [if_neg (by omega), hb, Nat.sub_self]
        simp only [List.length_cons]
        rw [show m + 1 + (rest.length + 1) = (m + 1 + rest.length) + 1 by omega]
        unfold Dev.readExactAux
        rw [if_pos rfl]
        rfl

/-- A computation over an honest reader does what it does over some device with the same contents. -/
theorem Prog.simulate {σ β : Type} {img : Bytes} {h : Bool → Nat → Nat → StM σ Bytes} {inv : σ → Prop}
    (hh : Honest img h inv) (t : Prog β) (s : σ) (hs : inv s)
    (hp : ∀ a ∈ t.asks h s, ∀ x, a.2.2.2 ≠ .panic x) :
    ∃ sc : List Resp,
      (∀ e, .fail e ∈ sc → e ≠ .interrupted ∧ ∃ a ∈ t.asks h s, a.2.2.2 = .err (.io e)) ∧
      ∀ pos rest, ∃ pos', t.run Dev.ask ⟨img, pos, sc ++ rest⟩ = ((t.run h s).1, ⟨img, pos', rest⟩) := by
  induction t generalizing s with
  | done b => exact ⟨[], (fun e h => (by cases h)), fun pos rest => ⟨pos, rfl⟩⟩
  | ask e p n k ih =>
    obtain ⟨h1, h2⟩ := hh s hs e p n
    obtain ⟨sc, g1, g2⟩ := Dev.ask_answers h2 (fun x => hp _ List.mem_cons_self x)
    obtain ⟨sc', g3, g4⟩ := ih (h e p n s).1 (h e p n s).2 h1 (fun a ha => hp a (List.mem_cons_of_mem _ ha))
    refine ⟨sc ++ sc', fun x hx => ?_, fun pos rest => ?_⟩
    · rcases List.mem_append.1 hx with hx | hx
      · exact ⟨(g1 x hx).2, _, List.mem_cons_self, (g1 x hx).1⟩
      · obtain ⟨i1, a, i2, i3⟩ := g3 x hx
        exact ⟨i1, a, List.mem_cons_of_mem _ i2, i3⟩
    · obtain ⟨pos1, e1⟩ := g2 pos (sc' ++ rest)
      obtain ⟨pos2, e2⟩ := g4 pos1 rest
      refine ⟨pos2, ?_⟩
      rw [List.append_assoc]
      show (k (Dev.ask e p n _).1).run Dev.ask (Dev.ask e p n _).2 = _
      rw [e1]
      exact e2

/-- **C60**, any reader: whatever state it has and however it splits its answers, an operation over a reader
that keeps the promises of `Read + Seek` for the bytes `img` has the same result as over one of the devices
of the model with these bytes. That device fails only with errors that the reader has answered. -/
theorem C60_reader {σ β : Type} {img : Bytes} {h : Bool → Nat → Nat → StM σ Bytes} {inv : σ → Prop}
    (hh : Honest img h inv) {t : Prog β} {f : Dev → β × Dev} (ht : Implements t f) (s : σ) (hs : inv s)
    (hp : ∀ a ∈ t.asks h s, ∀ x, a.2.2.2 ≠ .panic x) (pos : Nat) :
    ∃ d : Dev, d.img = img ∧ d.pos = pos ∧
      (∀ e, .fail e ∈ d.sched → e ≠ .interrupted ∧ ∃ a ∈ t.asks h s, a.2.2.2 = .err (.io e)) ∧
      (t.run h s).1 = (f d).1 := by
  obtain ⟨sc, g1, g2⟩ := t.simulate hh s hs hp
  obtain ⟨pos', e⟩ := g2 pos []
  rw [List.append_nil] at e
  refine ⟨⟨img, pos, sc⟩, rfl, rfl, g1, ?_⟩
  rw [ht ⟨img, pos, sc⟩ (fun r hr he => by
    subst he
    exact (g1 _ hr).1 rfl), e]

/-- If no request is answered with an error, that device never fails, so everything that is proved for such
devices holds over the reader. -/
theorem C60_reader_ok {σ β : Type} {img : Bytes} {h : Bool → Nat → Nat → StM σ Bytes} {inv : σ → Prop}
    (hh : Honest img h inv) {t : Prog β} {f : Dev → β × Dev} (ht : Implements t f) (s : σ) (hs : inv s)
    (hok : ∀ a ∈ t.asks h s, ∃ b, a.2.2.2 = .ok b) :
    ∃ d : Dev, d.Ok img ∧ (t.run h s).1 = (f d).1 := by
  obtain ⟨d, h1, _, h2, h3⟩ := C60_reader hh ht s hs (fun a ha x hx => by
    obtain ⟨b, hb⟩ := hok a ha
    rw [hb] at hx
    cases hx) 0
  refine ⟨d, ⟨h1, fun r hr e he => ?_⟩, h3⟩
  subst he
  obtain ⟨_, a, ha, hx⟩ := h2 e hr
  obtain ⟨b, hb⟩ := hok a ha
  rw [hb] at hx
  cases hx

/-- **C60**, errors: an operation over an honest reader that does not panic reports an error that the reader
has answered, or has the result that it has over a device with these bytes that never fails. -/
theorem C60_same_or_reports {σ α : Type} {img : Bytes} {h : Bool → Nat → Nat → StM σ Bytes} {inv : σ → Prop}
    (hh : Honest img h inv) {t : Prog (Res α)} {p : StM Dev α} (ht : Implements t p) (hp : SameOrReports p)
    (s : σ) (hs : inv s) (hnp : ∀ a ∈ t.asks h s, ∀ x, a.2.2.2 ≠ .panic x) :
    (∃ e, (t.run h s).1 = .err (.io e) ∧ ∃ a ∈ t.asks h s, a.2.2.2 = .err (.io e)) ∨
    ∃ d : Dev, d.Ok img ∧ (t.run h s).1 = (p d).1 := by
  obtain ⟨d, h1, _, h2, h3⟩ := C60_reader hh ht s hs hnp 0
  rcases hp d (fun e he => (h2 e he).1) with ⟨e, he, hr⟩ | hr
  · exact .inl ⟨e, by rw [h3, hr], (h2 e he).2⟩
  · right
    obtain ⟨k1, _, k3, _⟩ := d.heal_spec 0
    refine ⟨d.heal 0, ⟨by rw [k1, h1], k3⟩, ?_⟩
    have := hr 0
    rw [OnDevice.heal_dev] at this
    rw [this, h3]

/-- **C60**, `get`: over an honest reader it either writes what it writes over a device that never fails, or
reports an error of the reader, having written the beginning of that. -/
theorem C60_get {σ : Type} {img : Bytes} {h : Bool → Nat → Nat → StM σ Bytes} {inv : σ → Prop}
    (hh : Honest img h inv) (sh : Shell) (arg : List Char) (exists' : List Char → Bool) (fuel : Nat)
    {t : Prog (Res (Except ShellMsg Nat) × Option (List Char × Bytes))}
    (ht : Implements t fun d =>
      (((sh.get arg exists' fuel d).1, (sh.get arg exists' fuel d).2.1), (sh.get arg exists' fuel d).2.2))
    (s : σ) (hs : inv s) (hnp : ∀ a ∈ t.asks h s, ∀ x, a.2.2.2 ≠ .panic x) :
    ∃ d : Dev, d.Ok img ∧
      ((t.run h s).1 = ((sh.get arg exists' fuel d).1, (sh.get arg exists' fuel d).2.1) ∨
       (∃ e, (t.run h s).1.1 = .err (.io e) ∧ ∃ a ∈ t.asks h s, a.2.2.2 = .err (.io e)) ∧
        ∃ name b b', (t.run h s).1.2 = some (name, b) ∧ (sh.get arg exists' fuel d).2.1 = some (name, b') ∧
          b <+: b') := by
  obtain ⟨d, h1, _, h2, h3⟩ := C60_reader hh ht s hs hnp 0
  obtain ⟨k1, _, k3, _⟩ := d.heal_spec 0
  refine ⟨d.heal 0, ⟨by rw [k1, h1], k3⟩, ?_⟩
  rcases C54_get sh arg exists' fuel 0 d (fun e he => (h2 e he).1) with ⟨⟨e, he, hr⟩, name, b, b', g1, g2, g3⟩ | hr
  · right
    exact ⟨⟨e, by rw [h3]; exact hr, (h2 e he).2⟩, name, b, b', by rw [h3]; exact g1, g2, g3⟩
  · left
    rw [hr, h3]

/-- **C60**, `dir`: likewise for the lines that are shown. -/
theorem C60_dir {σ : Type} {img : Bytes} {h : Bool → Nat → Nat → StM σ Bytes} {inv : σ → Prop}
    (hh : Honest img h inv) (sh : Shell) (fuel : Nat) {t : Prog (Res Unit × List (Bool × Bytes))}
    (ht : Implements t fun d => (((sh.dir fuel d).1, (sh.dir fuel d).2.1), (sh.dir fuel d).2.2))
    (s : σ) (hs : inv s) (hnp : ∀ a ∈ t.asks h s, ∀ x, a.2.2.2 ≠ .panic x) :
    ∃ d : Dev, d.Ok img ∧
      ((t.run h s).1 = ((sh.dir fuel d).1, (sh.dir fuel d).2.1) ∨
       (∃ e, (t.run h s).1.1 = .err (.io e) ∧ ∃ a ∈ t.asks h s, a.2.2.2 = .err (.io e)) ∧
        (t.run h s).1.2 <+: (sh.dir fuel d).2.1) := by
  obtain ⟨d, h1, _, h2, h3⟩ := C60_reader hh ht s hs hnp 0
  obtain ⟨k1, _, k3, _⟩ := d.heal_spec 0
  refine ⟨d.heal 0, ⟨by rw [k1, h1], k3⟩, ?_⟩
  rcases C54_dir sh fuel 0 d (fun e he => (h2 e he).1) with ⟨⟨e, he, hr⟩, g⟩ | hr
  · right
    exact ⟨⟨e, by rw [h3]; exact hr, (h2 e he).2⟩, by rw [h3]; exact g⟩
  · left
    rw [hr, h3]

end NT
