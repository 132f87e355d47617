import Verif.Model.AttrList
import Verif.Lemmas.Stream

/-! The loops of a value stitched from several attributes (`ALVal`), on a device that does not
fail. -/

namespace NT

open Spec

/-- A device over the image `img` that does not fail. -/
def Dev.Ok (img : Bytes) (d : Dev) : Prop := d.img = img ∧ d.NoFail

/-- The runs that the current attribute has still to yield. -/
def RunsLeft (cs : Nat) : Option AttrState → List DataRun → Prop
  | none, rs => rs = []
  | some ⟨_, _, none⟩, rs => rs = []
  | some ⟨f, off, some s⟩, rs => ∃ data position,
      (do let a ← Attr.new f off none; a.nonResidentValueDataAndPosition : Res (Bytes × Pos)) =
        .ok (data, position) ∧ Yields (DataRuns.fromState cs data position s) rs

/-- The runs of the attributes that are connected at the position of the list iterator. -/
def Conn (img : Bytes) (ntfs : Ntfs) (inst : Nat) (ty : AttrType) : List (List DataRun) → AttrList → Prop
  | [], l => ∀ d : Dev, d.Ok img →
      (∃ d', d'.Ok img ∧ AttrList.next (l, d) = (.ok none, (l, d'))) ∨
      ∃ e l' d', d'.Ok img ∧ AttrList.next (l, d) = (.ok (some e), (l', d')) ∧
        (e.inst ≠ inst ∨ ∃ t, e.ty = .ok t ∧ t ≠ ty)
  | g :: gs, l => ∀ d : Dev, d.Ok img →
      ∃ e l' d', d'.Ok img ∧ AttrList.next (l, d) = (.ok (some e), (l', d')) ∧
        e.inst = inst ∧ e.ty = .ok ty ∧
        (∃ x xs a, g = x :: xs ∧ RunsLeft ntfs.clusterSize (some a) xs ∧
          ∀ d : Dev, d.Ok img → ∃ d', d'.Ok img ∧ ALVal.openEntry ntfs e d = (.ok (some (x, a)), d')) ∧
        Conn img ntfs inst ty gs l'

/-- The runs that `advance` has still to yield. -/
def ALVal.Ahead (img : Bytes) (v : ALVal) (post : List DataRun) : Prop :=
  ∃ rs gs, RunsLeft v.ntfs.clusterSize v.attrState rs ∧
    (match v.connected with
      | none => gs = []
      | some l => Conn img v.ntfs v.inst v.ty gs l) ∧
    post = rs ++ gs.flatten

/-- The parts of a value that no operation changes. -/
structure ALVal.Same (v w : ALVal) : Prop where
  ntfs : w.ntfs = v.ntfs
  initial : w.initial = v.initial
  inst : w.inst = v.inst
  ty : w.ty = v.ty
  dataSize : w.dataSize = v.dataSize

theorem ALVal.Same.refl (v : ALVal) : v.Same v := ⟨rfl, rfl, rfl, rfl, rfl⟩

theorem ALVal.Same.trans {u v w : ALVal} (h : u.Same v) (k : v.Same w) : u.Same w :=
  ⟨k.ntfs.trans h.ntfs, k.initial.trans h.initial, k.inst.trans h.inst, k.ty.trans h.ty,
    k.dataSize.trans h.dataSize⟩

theorem DataRuns.next_static (r : DataRuns) : r.next.2 = { r with state := r.next.2.state } := by
  unfold DataRuns.next
  repeat' first | split | rfl | dsimp only

theorem ALVal.nextDataRun_done (v : ALVal) (h : RunsLeft v.ntfs.clusterSize v.attrState []) :
    ∃ a', v.nextDataRun = (.ok false, { v with attrState := a' }) ∧
      RunsLeft v.ntfs.clusterSize a' [] := by
  unfold ALVal.nextDataRun
  rcases hv : v.attrState with _ | ⟨f, off, _ | s⟩
  · refine ⟨none, ?_, rfl⟩
    cases v; cases hv; rfl
  · refine ⟨some ⟨f, off, none⟩, ?_, rfl⟩
    cases v; cases hv; rfl
  · rw [hv] at h
    obtain ⟨data, position, h1, h2⟩ := h
    dsimp only
    rw [h1]
    dsimp only
    cases h2 with
    | @done _ r' h => rw [h]; exact ⟨_, rfl, rfl⟩

theorem ALVal.nextDataRun_step (v : ALVal) (x : DataRun) (xs : List DataRun)
    (h : RunsLeft v.ntfs.clusterSize v.attrState (x :: xs)) :
    ∃ a', v.nextDataRun =
        (.ok true, { v with attrState := a', st := { v.st with run := some x } }) ∧
      RunsLeft v.ntfs.clusterSize a' xs := by
  unfold ALVal.nextDataRun
  rcases hv : v.attrState with _ | ⟨f, off, _ | s⟩
  · rw [hv] at h; cases h
  · rw [hv] at h; cases h
  · rw [hv] at h
    obtain ⟨data, position, h1, h2⟩ := h
    dsimp only
    rw [h1]
    dsimp only
    cases h2 with
    | @step _ r' _ _ h h' =>
      have hst := (DataRuns.fromState v.ntfs.clusterSize data position s).next_static
      rw [h] at hst ⊢
      refine ⟨_, rfl, data, position, h1, ?_⟩
      dsimp only at hst
      rw [hst] at h'
      exact h'

theorem ALVal.nextAttribute_conn (img : Bytes) (v : ALVal) (d : Dev) (hd : d.Ok img) (l : AttrList)
    (gs : List (List DataRun)) (hl : v.connected = some l) (h : Conn img v.ntfs v.inst v.ty gs l) :
    match gs with
    | [] => ∃ c' d', nextAttribute (v, d) = (.ok false, ({ v with connected := c' }, d')) ∧ d'.Ok img ∧
        (c' = none ∨ ∃ l', c' = some l' ∧ Conn img v.ntfs v.inst v.ty [] l')
    | g :: gs => ∃ x xs a' l' d', g = x :: xs ∧
        nextAttribute (v, d) = (.ok true, ({ v with
          connected := some l', attrState := some a', st := { v.st with run := some x } }, d')) ∧
        d'.Ok img ∧ RunsLeft v.ntfs.clusterSize (some a') xs ∧ Conn img v.ntfs v.inst v.ty gs l' := by
  cases gs with
  | nil =>
    dsimp only
    rcases h d hd with ⟨d', hd', hn⟩ | ⟨e, l', d', hd', hn, he⟩
    · refine ⟨some l, d', ?_, hd', .inr ⟨l, rfl, h⟩⟩
      unfold nextAttribute
      rw [StM.bind_apply]
      simp only [nextConnected, hl, hn]
      rfl
    · refine ⟨none, d', ?_, hd', .inl rfl⟩
      unfold nextAttribute
      rw [StM.bind_apply]
      simp only [nextConnected, hl, hn]
      by_cases hi : e.inst = v.inst
      · rw [if_pos hi]
        rcases he with he | ⟨t, ht, hne⟩
        · exact absurd hi he
        · rw [ht]
          dsimp only
          rw [if_neg hne]
          rfl
      · rw [if_neg hi]
        rfl
  | cons g gs =>
    dsimp only
    obtain ⟨e, l', d', hd', hn, hi, ht, ⟨x, xs, a, hg, hr, ho⟩, hc⟩ := h d hd
    obtain ⟨d2, hd2, ho2⟩ := ho d' hd'
    refine ⟨x, xs, a, l', d2, hg, ?_, hd2, hr, hc⟩
    unfold nextAttribute
    rw [StM.bind_apply]
    simp only [nextConnected, hl, hn]
    rw [if_pos hi, ht]
    dsimp only
    rw [if_pos rfl]
    dsimp only
    rw [ho2]

/-- Another run is ahead: `advance` makes it the current one. -/
theorem ALVal.advance_step (img : Bytes) (v : ALVal) (d : Dev) (hd : d.Ok img) (x : DataRun)
    (xs : List DataRun) (h : v.Ahead img (x :: xs)) :
    ∃ v' d', v.advance d = (.ok true, v', d') ∧ d'.Ok img ∧ v.Same v' ∧
      v'.st = { v.st with run := some x } ∧ v'.Ahead img xs := by
  obtain ⟨rs, gs, h1, h2, h3⟩ := h
  cases rs with
  | cons y ys =>
    rw [List.cons_append] at h3
    injection h3 with h3 h4
    subst h3
    obtain ⟨a', e, hr⟩ := v.nextDataRun_step x ys h1
    refine ⟨{ v with attrState := a', st := { v.st with run := some x } }, d,
      by simp only [advance, e], hd, ⟨rfl, rfl, rfl, rfl, rfl⟩, rfl, ys, gs, hr, h2, h4⟩
  | nil =>
    obtain ⟨a', e, hr⟩ := v.nextDataRun_done h1
    rw [List.nil_append] at h3
    cases hc : v.connected with
    | none => rw [hc] at h2; dsimp only at h2; subst h2; cases h3
    | some l =>
      rw [hc] at h2
      dsimp only at h2
      have hn := ALVal.nextAttribute_conn img { v with attrState := a' } d hd l gs hc h2
      cases gs with
      | nil => cases h3
      | cons g gs =>
        dsimp only at hn
        obtain ⟨y, ys, a2, l', d', hg, hn, hd', hr', hc'⟩ := hn
        subst hg
        rw [List.flatten_cons, List.cons_append] at h3
        injection h3 with h3 h4
        subst h3
        refine ⟨{ v with
          connected := some l', attrState := some a2, st := { v.st with run := some x } }, d',
          by simp only [advance, e, hn], hd', ⟨rfl, rfl, rfl, rfl, rfl⟩, rfl, ys, gs, hr', hc', h4⟩

/-- No run is ahead: `advance` says so and stays there. -/
theorem ALVal.advance_done (img : Bytes) (v : ALVal) (d : Dev) (hd : d.Ok img) (h : v.Ahead img []) :
    ∃ v' d', v.advance d = (.ok false, v', d') ∧ d'.Ok img ∧ v.Same v' ∧ v'.st = v.st ∧
      v'.Ahead img [] := by
  obtain ⟨rs, gs, h1, h2, h3⟩ := h
  have h3' := List.append_eq_nil_iff.1 h3.symm
  obtain ⟨hrs, hgs⟩ := h3'
  subst hrs
  obtain ⟨a', e, hr⟩ := v.nextDataRun_done h1
  cases hc : v.connected with
  | none =>
    refine ⟨{ v with attrState := a' }, d, ?_, hd, ⟨rfl, rfl, rfl, rfl, rfl⟩, rfl, [], [], hr, ?_, rfl⟩
    · simp only [advance, e, nextAttribute]
      rw [StM.bind_apply]
      simp only [nextConnected, hc]
      rfl
    · dsimp only; rw [hc]
  | some l =>
    rw [hc] at h2
    dsimp only at h2
    have hn := ALVal.nextAttribute_conn img { v with attrState := a' } d hd l gs hc h2
    cases gs with
    | nil =>
      dsimp only at hn
      obtain ⟨c', d', hn, hd', hc'⟩ := hn
      refine ⟨{ v with attrState := a', connected := c' }, d', by simp only [advance, e, hn], hd',
        ⟨rfl, rfl, rfl, rfl, rfl⟩, rfl, [], [], hr, ?_, rfl⟩
      dsimp only
      rcases hc' with hc' | ⟨l', hc', hcc⟩
      · rw [hc']
      · rw [hc']; exact hcc
    | cons g gs =>
      dsimp only at hn
      obtain ⟨y, ys, a2, l', d', hg, hn, hd', hr', hc'⟩ := hn
      subst hg
      simp at hgs

/-- The loop of `read`: it delivers exactly the next bytes. -/
theorem ALVal.readLoop_ok (img : Bytes) (fuel : Nat) (v : ALVal) (buf : Bytes) (br : Nat) (d : Dev)
    (post : List DataRun) (hd : d.Ok img) (himg : img.length < U64)
    (hy : v.Ahead img post) (hcur : ∀ r, v.st.run = some r → RunOk img r)
    (hpost : ∀ r ∈ post, RunOk img r) (hbr : br ≤ buf.length)
    (hfuel : buf.length - br + post.length < fuel) :
    ∃ got v' post' d',
      got = (restBytes img (pending v.st post)).take
        (min (buf.length - br) (v.st.dataSize - v.st.streamPosition)) ∧
      ALVal.readLoop fuel v buf br d = (.ok (br + got.length), v', overwrite buf br got, d') ∧
      d'.Ok img ∧ v.Same v' ∧
      v'.st = { v.st with run := v'.st.run, streamPosition := v.st.streamPosition + got.length } ∧
      v'.Ahead img post' ∧ (∀ r, v'.st.run = some r → RunOk img r) ∧
      (∀ r ∈ post', r ∈ post) ∧ post'.length ≤ post.length ∧
      (Shift img (pending v'.st post') (pending v.st post) got.length ∨
        v.st.dataSize ≤ v.st.streamPosition + got.length) := by
  induction fuel generalizing v buf br d post with
  | zero => omega
  | succ fuel ih =>
    unfold ALVal.readLoop
    by_cases hlt : br < buf.length
    case neg =>
      rw [if_neg hlt]
      have : min (buf.length - br) (v.st.dataSize - v.st.streamPosition) = 0 := by omega
      refine ⟨[], v, post, d, by rw [this, List.take_zero], ?_, hd, .refl _, rfl, hy, hcur,
        fun _ h => h, Nat.le_refl _, .inl (Shift.refl _ _)⟩
      rw [overwrite_nil]; rfl
    rw [if_pos hlt]
    by_cases hskip : ∀ r, v.st.run = some r →
        r.allocatedSize ≤ r.streamPosition ∨ v.st.dataSize ≤ v.st.streamPosition
    · rw [readDataRun_skip _ _ _ _ hskip]
      dsimp only
      -- the current run contributes nothing
      have hpend : ∀ k, (restBytes img (pending v.st post)).take
            (min k (v.st.dataSize - v.st.streamPosition)) =
          (restBytes img post).take (min k (v.st.dataSize - v.st.streamPosition)) := by
        intro k
        cases hr : v.st.run with
        | none => simp [pending, hr]
        | some r =>
          rcases hskip r hr with h | h
          · simp [pending, hr, restBytes_cons, runBytes_end _ _ h]
          · have : min k (v.st.dataSize - v.st.streamPosition) = 0 := by omega
            rw [this, List.take_zero, List.take_zero]
      cases post with
      | nil =>
        obtain ⟨v1, d1, e, hd1, hs1, hst1, hy'⟩ := v.advance_done img d hd hy
        have ev : ({ v with st := v.st } : ALVal) = v := rfl
        rw [ev, e]
        dsimp only
        refine ⟨[], v1, [], d1, ?_, ?_, hd1, hs1, by rw [hst1]; rfl, hy', by rw [hst1]; exact hcur,
          fun _ h => h, Nat.le_refl _, .inl (by rw [hst1]; exact Shift.refl _ _)⟩
        · rw [hpend]; simp
        · rw [overwrite_nil]; rfl
      | cons x xs =>
        obtain ⟨v1, d1, e, hd1, hs1, hst1, hy'⟩ := v.advance_step img d hd x xs hy
        have ev : ({ v with st := v.st } : ALVal) = v := rfl
        rw [ev, e]
        dsimp only
        obtain ⟨got, v', post', d', h1, h2, h3, h4, h5, h6, h7, h8, h9, h10⟩ :=
          ih v1 buf br d1 xs hd1 hy'
            (by
              intro r hr; rw [hst1] at hr; injection hr with hr; subst hr
              exact hpost _ (by simp))
            (fun r hr => hpost r (by simp [hr])) hbr (by simp at hfuel; omega)
        have hp : restBytes img (pending v1.st xs) = restBytes img (x :: xs) := by
          simp [pending, hst1]
        have hds : v1.st.dataSize = v.st.dataSize := by rw [hst1]
        have hsp : v1.st.streamPosition = v.st.streamPosition := by rw [hst1]
        rw [hp, hds, hsp] at h1
        rw [hds, hsp] at h10
        refine ⟨got, v', post', d', ?_, h2, h3, hs1.trans h4, ?_, h6, h7, ?_, ?_, ?_⟩
        · rw [hpend, h1]
        · rw [h5, hst1]
        · intro r hr; simp [h8 r hr]
        · simp; omega
        · rcases h10 with h | h
          · cases hr : v.st.run with
            | none => left; simpa [pending, hr, hst1] using h
            | some r =>
              rcases hskip r hr with hh | hh
              · left
                have hq : pending v1.st xs = x :: xs := by simp [pending, hst1]
                rw [hq] at h
                have := h.trans (Shift.skipDone (img := img) (x :: xs) hh)
                simpa [pending, hr] using this
              · right; omega
          · exact .inr h
    · -- the current run is read
      have hr : ∃ r, v.st.run = some r ∧ r.streamPosition < r.allocatedSize ∧
          v.st.streamPosition < v.st.dataSize := by
        cases hr : v.st.run with
        | none => exact absurd (fun r h => by rw [hr] at h; cases h) hskip
        | some r =>
          refine ⟨r, rfl, ?_⟩
          by_cases hh : r.allocatedSize ≤ r.streamPosition ∨ v.st.dataSize ≤ v.st.streamPosition
          · exact absurd (fun r' h => by rw [hr] at h; injection h with h; subst h; exact hh) hskip
          · omega
      obtain ⟨r, hr, hlt2, hsz⟩ := hr
      have hok := hcur r hr
      have hdi := hd.1
      obtain ⟨n, d1, e, h1, h2, h3, h4, h5, h6⟩ :=
        readDataRun_read v.st buf br d r hd.2 (by rw [hdi]; exact himg) hr (by rw [hdi]; exact hok)
          hlt2 hsz hlt
      rw [hdi] at e h5
      rw [e]
      dsimp only
      have hbl : ((runBytes img r).take n).length = n := by
        rw [List.length_take, runBytes_length hok]; omega
      have hol : (overwrite buf br ((runBytes img r).take n)).length = buf.length :=
        overwrite_length (by omega)
      obtain ⟨got, v', post', d', g1, g2, g3, g4, g5, g6, g7, g8, g9, g10⟩ :=
        ih { v with st := { v.st with
              run := some { r with streamPosition := r.streamPosition + n }
              streamPosition := v.st.streamPosition + n } }
          (overwrite buf br ((runBytes img r).take n)) (br + n) d1 post ⟨h5, h6⟩ hy
          (by
            intro r' hr'; injection hr' with hr'; subst hr'
            exact ⟨by have := hok.le; dsimp only; omega, hok.lt, hok.inside, hok.placed⟩)
          hpost (by rw [hol]; exact h2) (by rw [hol]; omega)
      dsimp only at g1 g2 g5 g10
      have hp : restBytes img (pending v.st post) = runBytes img r ++ restBytes img post := by
        simp [pending, hr, restBytes_cons]
      have hp' : restBytes img (pending { v.st with
              run := some { r with streamPosition := r.streamPosition + n }
              streamPosition := v.st.streamPosition + n } post) =
          (restBytes img (pending v.st post)).drop n := by
        rw [hp, List.drop_append_of_le_length (by rw [runBytes_length hok]; omega)]
        simp [pending, restBytes_cons, runBytes_advance]
      rw [hp', hol] at g1
      have ht : (runBytes img r).take n = (restBytes img (pending v.st post)).take n := by
        rw [hp, List.take_append_of_le_length (by rw [runBytes_length hok]; omega)]
      refine ⟨(runBytes img r).take n ++ got, v', post', d', ?_, ?_, g3,
        ⟨g4.ntfs, g4.initial, g4.inst, g4.ty, g4.dataSize⟩, ?_, g6, g7, g8, g9, ?_⟩
      · rw [ht, g1, ← List.take_add]
        congr 1; omega
      · rw [g2, List.length_append, hbl]
        have := overwrite_append buf ((runBytes img r).take n) got br (by omega)
        rw [hbl] at this
        rw [this]
        congr 2
        omega
      · rw [g5, List.length_append, hbl]
        simp only [Nat.add_assoc]
      · rw [List.length_append, hbl]
        rcases g10 with h | h
        · left
          have := h.trans (Shift.advance (img := img) post n hok h3)
          simpa [pending, hr] using this
        · right; omega

/-- The loop of `seek`: it skips exactly the requested number of bytes. -/
theorem ALVal.seekLoop_ok (img : Bytes) (fuel : Nat) (v : ALVal) (pos : SeekFrom) (left : Nat) (d : Dev)
    (post : List DataRun) (hd : d.Ok img)
    (hy : v.Ahead img post) (hcur : ∀ r, v.st.run = some r → RunOk img r)
    (hpost : ∀ r ∈ post, RunOk img r ∧ r.streamPosition = 0)
    (hm : SeekMode pos v.st) (hI : ∀ n, pos = .current n → left < I63)
    (hfuel : post.length < fuel) :
    ∃ v' post' d', ALVal.seekLoop fuel v pos left d = (.ok (), v', d') ∧ d'.Ok img ∧ v.Same v' ∧
      v'.st = { v.st with run := v'.st.run } ∧
      v'.Ahead img post' ∧ (∀ r, v'.st.run = some r → RunOk img r) ∧
      (∀ r ∈ post', r ∈ post) ∧ post'.length ≤ post.length ∧
      Shift img (pending v'.st post') (pending v.st post) left := by
  induction fuel generalizing v left post d with
  | zero => omega
  | succ fuel ih =>
    unfold ALVal.seekLoop
    by_cases hleft : left > 0
    case neg =>
      rw [if_neg hleft]
      have : left = 0 := by omega
      subst this
      exact ⟨v, post, d, rfl, hd, .refl _, rfl, hy, hcur, fun _ h => h, Nat.le_refl _, Shift.refl _ _⟩
    rw [if_pos hleft]
    by_cases hskip : ∀ r, v.st.run = some r → r.allocatedSize - r.streamPosition ≤ left
    · obtain ⟨k, hk, hpend⟩ : ∃ k, v.st.seekDataRun pos left = (.ok false, v.st, left - k) ∧
          Shift img post (pending v.st post) k ∧ k ≤ left := by
        cases hr : v.st.run with
        | none =>
          exact ⟨0, by rw [seekDataRun_skip _ _ _ hskip, hr],
            by simpa [pending, hr] using Shift.refl img post, by simp⟩
        | some r =>
          exact ⟨r.allocatedSize - r.streamPosition, by rw [seekDataRun_skip _ _ _ hskip, hr],
            by simpa [pending, hr] using Shift.skip post (hcur r hr), hskip r hr⟩
      rw [hk]
      dsimp only
      have ev : ({ v with st := v.st } : ALVal) = v := rfl
      rw [ev]
      cases post with
      | nil =>
        obtain ⟨v1, d1, e, hd1, hs1, hst1, hy'⟩ := v.advance_done img d hd hy
        rw [e]
        dsimp only
        refine ⟨_, [], d1, rfl, hd1, ⟨hs1.ntfs, hs1.initial, hs1.inst, hs1.ty, hs1.dataSize⟩,
          by dsimp only; rw [hst1], hy', (by intro r hr; cases hr),
          fun _ h => h, Nat.le_refl _, ?_⟩
        have := (Shift.nil img (left - k)).trans hpend.1
        have e : k + (left - k) = left := by have := hpend.2; omega
        rw [e] at this
        simpa [pending] using this
      | cons x xs =>
        obtain ⟨v1, d1, e, hd1, hs1, hst1, hy'⟩ := v.advance_step img d hd x xs hy
        rw [e]
        dsimp only
        obtain ⟨v', post', d', h1, hd', hs', h2, h3, h4, h5, h6, h7⟩ :=
          ih v1 (left - k) d1 xs hd1 hy'
            (by
              intro r hr; rw [hst1] at hr; injection hr with hr; subst hr
              exact (hpost _ (by simp)).1)
            (fun r hr => hpost r (by simp [hr]))
            (by
              cases pos with
              | start n =>
                intro r hr; rw [hst1] at hr; injection hr with hr; subst hr
                exact (hpost _ (by simp)).2
              | current n => trivial
              | end_ n => exact hm.elim)
            (by intro n hn; have := hI n hn; omega) (by simp at hfuel; omega)
        refine ⟨v', post', d', h1, hd', hs1.trans hs', by rw [h2, hst1], h3, h4,
          by intro r hr; simp [h5 r hr], by simp; omega, ?_⟩
        have hq : pending v1.st xs = x :: xs := by simp [pending, hst1]
        rw [hq] at h7
        have := h7.trans hpend.1
        have e : k + (left - k) = left := by have := hpend.2; omega
        rwa [e] at this
    · have hr : ∃ r, v.st.run = some r ∧ left < r.allocatedSize - r.streamPosition := by
        cases hr : v.st.run with
        | none => exact absurd (fun r h => by rw [hr] at h; cases h) hskip
        | some r =>
          refine ⟨r, rfl, ?_⟩
          by_cases hh : r.allocatedSize - r.streamPosition ≤ left
          · exact absurd (fun r' h => by rw [hr] at h; injection h with h; subst h; exact hh) hskip
          · omega
      obtain ⟨r, hr, hlt⟩ := hr
      have hok := hcur r hr
      rw [seekDataRun_final _ _ _ r hr hlt hm hok.lt hI]
      dsimp only
      refine ⟨_, post, d, rfl, hd, ⟨rfl, rfl, rfl, rfl, rfl⟩, rfl, hy, ?_, fun _ h => h, Nat.le_refl _, ?_⟩
      · intro r' hr'; injection hr' with hr'; subst hr'
        exact ⟨by have := hok.le; dsimp only; omega, hok.lt, hok.inside, hok.placed⟩
      · have := Shift.advance post left hok (by omega)
        simpa [pending, hr] using this

end NT
