import Verif.Model.Shell

/-! A device that fails at some calls compared with the same device without failures: an operation
either does not meet a failing call, and then does the same on both, or it reports the failure. -/

namespace NT

/-- The device on which every call that would have failed succeeds instead (and, if it is a read,
delivers at most `k + 1` bytes). -/
def Resp.heal (k : Nat) : Resp → Resp
  | .fail _ => .chunk k
  | .chunk n => .chunk n

def Dev.heal (k : Nat) (d : Dev) : Dev := { d with sched := d.sched.map (Resp.heal k) }

/-- All failures to come are in `F`. -/
def Dev.FailsIn (F : IoErr → Prop) (d : Dev) : Prop := ∀ e, .fail e ∈ d.sched → F e

/-- The states of operations: a device, or something together with a device. -/
class OnDevice (S : Type) where
  heal : Nat → S → S
  dev : S → Dev

instance : OnDevice Dev := ⟨Dev.heal, fun d => d⟩
instance {σ : Type} : OnDevice (σ × Dev) := ⟨fun k s => (s.1, s.2.heal k), Prod.snd⟩

/-- All failures to come are in `F`. -/
abbrev OnDevice.failsIn {S : Type} [OnDevice S] (F : IoErr → Prop) (s : S) : Prop :=
  (OnDevice.dev s).FailsIn F

theorem OnDevice.heal_dev (k : Nat) (d : Dev) : OnDevice.heal k d = d.heal k := rfl
theorem OnDevice.heal_pair {σ : Type} (k : Nat) (s : σ) (d : Dev) :
    OnDevice.heal k (s, d) = (s, d.heal k) := rfl

/-- The operation either behaves as on the healed device, or reports one of the failures. -/
def Faithful {S α : Type} [OnDevice S] (F : IoErr → Prop) (k : Nat) (p : StM S α) : Prop :=
  ∀ s, OnDevice.failsIn F s →
    (OnDevice.failsIn F (p s).2 ∧ p (OnDevice.heal k s) = ((p s).1, OnDevice.heal k (p s).2)) ∨
    ∃ e, F e ∧ (p s).1 = .err (.io e)

variable {F : IoErr → Prop} {k : Nat}

namespace Faithful

theorem lift {S α : Type} [OnDevice S] (x : Res α) : Faithful F k (StM.lift x : StM S α) :=
  fun _ h => .inl ⟨h, rfl⟩

theorem pure {S α : Type} [OnDevice S] (a : α) : Faithful F k (Pure.pure a : StM S α) :=
  fun _ h => .inl ⟨h, rfl⟩

theorem fail {S α : Type} [OnDevice S] (e : Err) : Faithful F k (StM.fail e : StM S α) :=
  fun _ h => .inl ⟨h, rfl⟩

theorem die {S α : Type} [OnDevice S] (p : Panic) : Faithful F k (StM.die p : StM S α) :=
  fun _ h => .inl ⟨h, rfl⟩

theorem bind {S α β : Type} [OnDevice S] {p : StM S α} {f : α → StM S β} (hp : Faithful F k p)
    (hf : ∀ a, Faithful F k (f a)) : Faithful F k (p >>= f) := by
  intro s hs
  rw [StM.bind_apply, StM.bind_apply]
  rcases hp s hs with ⟨h1, h2⟩ | ⟨e, h1, h2⟩
  · rw [h2]
    generalize p s = q at h1
    obtain ⟨r, s'⟩ := q
    cases r with
    | ok a => exact hf a s' h1
    | err e => exact .inl ⟨h1, rfl⟩
    | panic e => exact .inl ⟨h1, rfl⟩
    | diverge => exact .inl ⟨h1, rfl⟩
  · refine .inr ⟨e, h1, ?_⟩
    generalize p s = q at h2
    obtain ⟨r, s'⟩ := q
    dsimp only at h2
    rw [h2]

theorem ite {S α : Type} [OnDevice S] {c : Prop} [Decidable c] {p q : StM S α} (hp : Faithful F k p)
    (hq : Faithful F k q) : Faithful F k (if c then p else q) := by
  split
  · exact hp
  · exact hq

theorem onDev {σ α : Type} {p : StM Dev α} (hp : Faithful F k p) :
    Faithful F k (StM.onDev p : StM (σ × Dev) α) := by
  rintro ⟨s, d⟩ hs
  rcases hp d hs with ⟨h1, h2⟩ | h
  · refine .inl ⟨h1, ?_⟩
    show StM.onDev p (s, d.heal k) = _
    unfold StM.onDev
    dsimp only
    rw [OnDevice.heal_dev] at h2
    rw [h2]
    rfl
  · exact .inr h

end Faithful

/-! ### The device itself -/

theorem Dev.seekStart_faithful (n : Nat) : Faithful F k (Dev.seekStart n) := by
  rintro ⟨img, pos, sched⟩ hs
  cases sched with
  | nil => exact .inl ⟨hs, rfl⟩
  | cons r s =>
    cases r with
    | fail e => exact .inr ⟨e, hs e List.mem_cons_self, rfl⟩
    | chunk n => exact .inl ⟨fun e he => hs e (List.mem_cons_of_mem _ he), rfl⟩

theorem Dev.read_faithful (n : Nat) : Faithful F k (Dev.read n) := by
  rintro ⟨img, pos, sched⟩ hs
  cases sched with
  | nil => exact .inl ⟨hs, rfl⟩
  | cons r s =>
    cases r with
    | fail e => exact .inr ⟨e, hs e List.mem_cons_self, rfl⟩
    | chunk n => exact .inl ⟨fun e he => hs e (List.mem_cons_of_mem _ he), rfl⟩

theorem Dev.readExactAux_faithful (hF : ¬ F .interrupted) (fuel n : Nat) (acc : Bytes) :
    Faithful F k (Dev.readExactAux fuel n acc) := by
  induction fuel generalizing n acc with
  | zero => exact fun _ h => .inl ⟨h, rfl⟩
  | succ fuel ih =>
    intro d hd
    unfold Dev.readExactAux
    by_cases hn : n = 0
    · rw [if_pos hn, if_pos hn]
      exact .inl ⟨hd, rfl⟩
    · rw [if_neg hn, if_neg hn]
      rcases Dev.read_faithful (F := F) (k := k) n d hd with ⟨h1, h2⟩ | ⟨e, h1, h2⟩
      · rw [h2]
        generalize Dev.read n d = q at h1
        obtain ⟨r, d'⟩ := q
        cases r with
        | ok b =>
          dsimp only
          by_cases hb : b.length = 0
          · rw [if_pos hb, if_pos hb]
            exact .inl ⟨h1, rfl⟩
          · rw [if_neg hb, if_neg hb]
            exact ih _ _ d' h1
        | err x =>
          by_cases hx : x = .io .interrupted
          · subst hx
            exact ih _ _ d' h1
          · cases x
            case io x =>
              cases x
              case interrupted => exact absurd rfl hx
              all_goals exact .inl ⟨h1, rfl⟩
            all_goals exact .inl ⟨h1, rfl⟩
        | panic p => exact .inl ⟨h1, rfl⟩
        | diverge => exact .inl ⟨h1, rfl⟩
      · refine .inr ⟨e, h1, ?_⟩
        generalize Dev.read n d = q at h2
        obtain ⟨r, d'⟩ := q
        dsimp only at h2
        rw [h2]
        cases e
        case interrupted => exact absurd h1 hF
        all_goals rfl

theorem Dev.readExact_faithful (hF : ¬ F .interrupted) (n : Nat) : Faithful F k (Dev.readExact n) := by
  intro d hd
  have := Dev.readExactAux_faithful (F := F) (k := k) hF (n + d.sched.length + 1) n [] d hd
  have hl : (Dev.heal k d).sched.length = d.sched.length := by simp [Dev.heal]
  unfold Dev.readExact
  rw [OnDevice.heal_dev, hl]
  exact this

/-! ### Non-resident values -/

/-- `DataRun.read` behaves the same on the healed device, or reports one of the failures. -/
theorem DataRun.read_faithful (r : DataRun) (buf : Bytes) (d : Dev) (hd : d.FailsIn F) :
    ((r.read buf d).2.2.2.FailsIn F ∧ r.read buf (d.heal k) =
      ((r.read buf d).1, (r.read buf d).2.1, (r.read buf d).2.2.1, (r.read buf d).2.2.2.heal k)) ∨
    ∃ e, F e ∧ (r.read buf d).1 = .err (.io e) := by
  unfold DataRun.read
  by_cases h0 : r.remainingLen = 0
  · rw [if_pos h0, if_pos h0]; exact .inl ⟨hd, rfl⟩
  rw [if_neg h0, if_neg h0]
  cases r.position with
  | none => exact .inl ⟨hd, rfl⟩
  | some p =>
    dsimp only
    by_cases hp : p + r.streamPosition < U64
    · rw [if_pos hp, if_pos hp]
      rcases Dev.seekStart_faithful (F := F) (k := k) (p + r.streamPosition) d hd with ⟨h1, h2⟩ | ⟨e, h1, h2⟩
      · rw [OnDevice.heal_dev] at h2
        rw [h2]
        generalize Dev.seekStart (p + r.streamPosition) d = q at h1
        obtain ⟨x, d1⟩ := q
        cases x with
        | ok u =>
          dsimp only
          rcases Dev.read_faithful (F := F) (k := k) (min buf.length r.remainingLen) d1 h1 with
            ⟨g1, g2⟩ | ⟨e, g1, g2⟩
          · rw [g2]
            generalize Dev.read (min buf.length r.remainingLen) d1 = q at g1
            obtain ⟨x, d2⟩ := q
            cases x <;> exact .inl ⟨g1, rfl⟩
          · refine .inr ⟨e, g1, ?_⟩
            generalize Dev.read (min buf.length r.remainingLen) d1 = q at g2
            obtain ⟨x, d2⟩ := q
            dsimp only at g2
            rw [g2]
        | err x => exact .inl ⟨h1, rfl⟩
        | panic x => exact .inl ⟨h1, rfl⟩
        | diverge => exact .inl ⟨h1, rfl⟩
      · refine .inr ⟨e, h1, ?_⟩
        generalize Dev.seekStart (p + r.streamPosition) d = q at h2
        obtain ⟨x, d2⟩ := q
        dsimp only at h2
        rw [h2]
    · rw [if_neg hp, if_neg hp]
      exact .inl ⟨hd, rfl⟩

theorem readDataRun_faithful (s : StreamState) (buf : Bytes) (br : Nat) (d : Dev) (hd : d.FailsIn F) :
    ((s.readDataRun buf br d).2.2.2.2.FailsIn F ∧ s.readDataRun buf br (d.heal k) =
      ((s.readDataRun buf br d).1, (s.readDataRun buf br d).2.1, (s.readDataRun buf br d).2.2.1,
        (s.readDataRun buf br d).2.2.2.1, (s.readDataRun buf br d).2.2.2.2.heal k)) ∨
    ∃ e, F e ∧ (s.readDataRun buf br d).1 = .err (.io e) := by
  unfold StreamState.readDataRun
  cases s.run with
  | none => exact .inl ⟨hd, rfl⟩
  | some r =>
    dsimp only
    by_cases h1 : r.streamPosition ≥ r.allocatedSize
    · rw [if_pos h1, if_pos h1]; exact .inl ⟨hd, rfl⟩
    rw [if_neg h1, if_neg h1]
    by_cases h2 : s.dataSize - s.streamPosition = 0
    · rw [if_pos h2, if_pos h2]; exact .inl ⟨hd, rfl⟩
    rw [if_neg h2, if_neg h2]
    obtain ⟨sl, hsl⟩ : ∃ sl, sl = (buf.drop br).take
      (br + min (buf.length - br) (s.dataSize - s.streamPosition) - br) := ⟨_, rfl⟩
    rw [← hsl]
    rcases DataRun.read_faithful (F := F) (k := k) r sl d hd with ⟨g1, g2⟩ | ⟨e, g1, g2⟩
    · rw [g2]
      generalize r.read sl d = q at g1
      obtain ⟨x, r', sl', d'⟩ := q
      cases x with
      | ok n =>
        dsimp only
        by_cases hn : n = 0
        · rw [if_pos hn, if_pos hn]; exact .inl ⟨g1, rfl⟩
        · rw [if_neg hn, if_neg hn]; exact .inl ⟨g1, rfl⟩
      | err x => exact .inl ⟨g1, rfl⟩
      | panic x => exact .inl ⟨g1, rfl⟩
      | diverge => exact .inl ⟨g1, rfl⟩
    · refine .inr ⟨e, g1, ?_⟩
      generalize r.read sl d = q at g2
      obtain ⟨x, r', sl', d'⟩ := q
      dsimp only at g2
      rw [g2]

theorem NonRes.readLoop_faithful (fuel : Nat) (v : NonRes) (buf : Bytes) (br : Nat) (d : Dev)
    (hd : d.FailsIn F) :
    ((NonRes.readLoop fuel v buf br d).2.2.2.FailsIn F ∧ NonRes.readLoop fuel v buf br (d.heal k) =
      ((NonRes.readLoop fuel v buf br d).1, (NonRes.readLoop fuel v buf br d).2.1,
        (NonRes.readLoop fuel v buf br d).2.2.1, (NonRes.readLoop fuel v buf br d).2.2.2.heal k)) ∨
    ∃ e, F e ∧ (NonRes.readLoop fuel v buf br d).1 = .err (.io e) := by
  induction fuel generalizing v buf br d with
  | zero => exact .inl ⟨hd, rfl⟩
  | succ fuel ih =>
    unfold NonRes.readLoop
    by_cases hb : br < buf.length
    · rw [if_pos hb, if_pos hb]
      rcases readDataRun_faithful (F := F) (k := k) v.st buf br d hd with ⟨g1, g2⟩ | ⟨e, g1, g2⟩
      · rw [g2]
        generalize v.st.readDataRun buf br d = q at g1
        obtain ⟨x, st', buf', br', d'⟩ := q
        cases x with
        | ok b =>
          cases b with
          | true => exact ih _ _ _ _ g1
          | false =>
            dsimp only
            generalize NonRes.nextDataRun _ = q
            obtain ⟨x, v'⟩ := q
            cases x with
            | ok b =>
              cases b with
              | true => exact ih _ _ _ _ g1
              | false => exact .inl ⟨g1, rfl⟩
            | err x => exact .inl ⟨g1, rfl⟩
            | panic x => exact .inl ⟨g1, rfl⟩
            | diverge => exact .inl ⟨g1, rfl⟩
        | err x => exact .inl ⟨g1, rfl⟩
        | panic x => exact .inl ⟨g1, rfl⟩
        | diverge => exact .inl ⟨g1, rfl⟩
      · refine .inr ⟨e, g1, ?_⟩
        generalize v.st.readDataRun buf br d = q at g2
        obtain ⟨x, st', buf', br', d'⟩ := q
        dsimp only at g2
        rw [g2]
    · rw [if_neg hb, if_neg hb]; exact .inl ⟨hd, rfl⟩

/-- A reader together with its device, as `Faithful` for every buffer. -/
def FaithfulRead {σ : Type} (F : IoErr → Prop) (k : Nat) (read : ReadFn (σ × Dev)) : Prop :=
  ∀ s d buf, d.FailsIn F →
    ((read (s, d) buf).2.1.2.FailsIn F ∧ read (s, d.heal k) buf =
      ((read (s, d) buf).1, ((read (s, d) buf).2.1.1, (read (s, d) buf).2.1.2.heal k),
        (read (s, d) buf).2.2)) ∨
    ∃ e, F e ∧ (read (s, d) buf).1 = .err (.io e)

theorem NonRes.readFn_faithful : FaithfulRead F k NonRes.readFn := by
  intro v d buf hd
  unfold NonRes.readFn NonRes.read
  dsimp only
  rcases NonRes.readLoop_faithful (F := F) (k := k) (buf.length + v.data.length + v.runs.data.length + 2) v buf 0 d hd with
    ⟨g1, g2⟩ | ⟨e, g1, g2⟩
  · rw [g2]
    exact .inl ⟨g1, rfl⟩
  · exact .inr ⟨e, g1, g2⟩

theorem readExactLoop_faithful {σ : Type} (hF : ¬ F .interrupted) {read : ReadFn (σ × Dev)}
    (h : FaithfulRead F k read) (fuel : Nat) (s : σ) (d : Dev) (done buf : Bytes) (hd : d.FailsIn F) :
    ((readExactLoop read fuel (s, d) done buf).2.1.2.FailsIn F ∧
      readExactLoop read fuel (s, d.heal k) done buf =
      ((readExactLoop read fuel (s, d) done buf).1,
        ((readExactLoop read fuel (s, d) done buf).2.1.1,
          (readExactLoop read fuel (s, d) done buf).2.1.2.heal k),
        (readExactLoop read fuel (s, d) done buf).2.2)) ∨
    ∃ e, F e ∧ (readExactLoop read fuel (s, d) done buf).1 = .err (.io e) := by
  induction fuel generalizing s d done buf with
  | zero => exact .inl ⟨hd, rfl⟩
  | succ fuel ih =>
    unfold readExactLoop
    by_cases hb : buf.length = 0
    · rw [if_pos hb, if_pos hb]; exact .inl ⟨hd, rfl⟩
    rw [if_neg hb, if_neg hb]
    rcases h s d buf hd with ⟨g1, g2⟩ | ⟨e, g1, g2⟩
    · rw [g2]
      generalize read (s, d) buf = q at g1
      obtain ⟨x, ⟨s', d'⟩, buf'⟩ := q
      cases x with
      | ok n =>
        dsimp only
        by_cases hn : n = 0
        · rw [if_pos hn, if_pos hn]; exact .inl ⟨g1, rfl⟩
        rw [if_neg hn, if_neg hn]
        by_cases hl : n ≤ buf'.length
        · rw [if_pos hl, if_pos hl]; exact ih _ _ _ _ g1
        · rw [if_neg hl, if_neg hl]; exact .inl ⟨g1, rfl⟩
      | err x =>
        dsimp only
        by_cases hx : x = .io .interrupted
        · rw [if_pos hx, if_pos hx]; exact ih _ _ _ _ g1
        · rw [if_neg hx, if_neg hx]; exact .inl ⟨g1, rfl⟩
      | panic x => exact .inl ⟨g1, rfl⟩
      | diverge => exact .inl ⟨g1, rfl⟩
    · refine .inr ⟨e, g1, ?_⟩
      generalize read (s, d) buf = q at g2
      obtain ⟨x, ⟨s', d'⟩, buf'⟩ := q
      dsimp only at g2
      rw [g2]
      dsimp only
      rw [if_neg (by intro h; injection h with h; subst h; exact hF g1)]

theorem copyLoop_faithful {σ : Type} {read : ReadFn (σ × Dev)}
    (h : FaithfulRead F k read) (fuel : Nat) (s : σ) (d : Dev) (buf out : Bytes) (hd : d.FailsIn F) :
    ((copyLoop read fuel (s, d) buf out).2.1.2.FailsIn F ∧
      copyLoop read fuel (s, d.heal k) buf out =
      ((copyLoop read fuel (s, d) buf out).1,
        ((copyLoop read fuel (s, d) buf out).2.1.1,
          (copyLoop read fuel (s, d) buf out).2.1.2.heal k),
        (copyLoop read fuel (s, d) buf out).2.2)) ∨
    (∃ e, F e ∧ (copyLoop read fuel (s, d) buf out).1 = .err (.io e)) ∧
      (copyLoop read fuel (s, d) buf out).2.2 <+: (copyLoop read fuel (s, d.heal k) buf out).2.2 := by
  have mono : ∀ fuel s buf out, out <+: (copyLoop read fuel s buf out).2.2 := by
    intro fuel
    induction fuel with
    | zero => intro s buf out; exact List.prefix_rfl
    | succ fuel ih =>
      intro s buf out
      unfold copyLoop
      generalize read s buf = q
      obtain ⟨x, s', buf'⟩ := q
      cases x with
      | ok n =>
        dsimp only
        by_cases hn : n = 0
        · rw [if_pos hn]; exact List.prefix_rfl
        rw [if_neg hn]
        by_cases hl : n ≤ buf'.length
        · rw [if_pos hl]; exact (List.prefix_append out _).trans (ih _ _ _)
        · rw [if_neg hl]; exact List.prefix_rfl
      | err x => exact List.prefix_rfl
      | panic x => exact List.prefix_rfl
      | diverge => exact List.prefix_rfl
  induction fuel generalizing s d buf out with
  | zero => exact .inl ⟨hd, rfl⟩
  | succ fuel ih =>
    rcases h s d buf hd with ⟨g1, g2⟩ | ⟨e, g1, g2⟩
    · unfold copyLoop
      rw [g2]
      generalize read (s, d) buf = q at g1
      obtain ⟨x, ⟨s', d'⟩, buf'⟩ := q
      cases x with
      | ok n =>
        dsimp only
        by_cases hn : n = 0
        · rw [if_pos hn, if_pos hn]; exact .inl ⟨g1, rfl⟩
        rw [if_neg hn, if_neg hn]
        by_cases hl : n ≤ buf'.length
        · rw [if_pos hl, if_pos hl]; exact ih _ _ _ _ g1
        · rw [if_neg hl, if_neg hl]; exact .inl ⟨g1, rfl⟩
      | err x => exact .inl ⟨g1, rfl⟩
      | panic x => exact .inl ⟨g1, rfl⟩
      | diverge => exact .inl ⟨g1, rfl⟩
    · have e1 : copyLoop read (fuel + 1) (s, d) buf out = (.err (.io e), (read (s, d) buf).2.1, out) := by
        rw [copyLoop]
        generalize read (s, d) buf = q at g2
        obtain ⟨x, s', buf'⟩ := q
        dsimp only at g2
        rw [g2]
      rw [e1]
      exact .inr ⟨⟨e, g1, rfl⟩, mono _ _ _ _⟩

/-- Turns a loop result into an `StM`. -/
theorem Faithful.ofReadExact {σ : Type} (hF : ¬ F .interrupted) {read : ReadFn (σ × Dev)}
    (h : FaithfulRead F k read) {n : Nat} {p : StM (σ × Dev) Bytes}
    (hp : ∀ v d, p (v, d) = match readExactLoop read (n + d.sched.length + 1) (v, d) [] (List.replicate n 0) with
      | (.ok (), s, buf) => (.ok buf, s)
      | (.err e, s, _) => (.err e.viaIo, s)
      | (.panic p, s, _) => (.panic p, s)
      | (.diverge, s, _) => (.diverge, s)) : Faithful F k p := by
  rintro ⟨v, d⟩ hd
  have hl : (Dev.heal k d).sched.length = d.sched.length := by simp [Dev.heal]
  rw [OnDevice.heal_pair, hp, hp, hl]
  rcases readExactLoop_faithful (k := k) hF h (n + d.sched.length + 1) v d [] (List.replicate n 0) hd with
    ⟨g1, g2⟩ | ⟨e, g1, g2⟩
  · rw [g2]
    generalize readExactLoop read (n + d.sched.length + 1) (v, d) [] (List.replicate n 0) = q at g1
    obtain ⟨x, ⟨s', d'⟩, buf'⟩ := q
    cases x <;> exact .inl ⟨g1, rfl⟩
  · refine .inr ⟨e, g1, ?_⟩
    generalize readExactLoop read (n + d.sched.length + 1) (v, d) [] (List.replicate n 0) = q at g2
    obtain ⟨x, ⟨s', d'⟩, buf'⟩ := q
    dsimp only at g2
    rw [g2]
    rfl

theorem NonRes.readExactAttached_faithful (hF : ¬ F .interrupted) (n : Nat) :
    Faithful F k (NonRes.readExactAttached n) := by
  refine Faithful.ofReadExact (n := n) hF NonRes.readFn_faithful ?_
  intro v d
  unfold NonRes.readExactAttached NonRes.readExact
  dsimp only
  rw [List.length_replicate]
  rcases readExactLoop NonRes.readFn (n + d.sched.length + 1) (v, d) [] (List.replicate n 0) with
    ⟨r, s, b⟩
  cases r <;> rfl

/-! ### Files -/

theorem NFile.new_faithful (hF : ¬ F .interrupted) (n : Ntfs) (p i : Nat) :
    Faithful F k (NFile.new n p i) :=
  .bind (Dev.seekStart_faithful _) fun _ => .bind (Dev.readExact_faithful hF _) fun _ => .lift _

theorem Ntfs.new_faithful (hF : ¬ F .interrupted) : Faithful F k Ntfs.new :=
  .bind (Dev.seekStart_faithful _) fun _ => .bind (Dev.readExact_faithful hF _) fun _ => .lift _

theorem Ntfs.file_faithful (hF : ¬ F .interrupted) (n : Ntfs) (i : Nat) : Faithful F k (n.file i) := by
  unfold Ntfs.file
  refine .bind (.lift _) fun o => ?_
  cases n.mftPosition with
  | none => exact .die _
  | some p =>
    refine .bind (NFile.new_faithful hF _ _ _) fun mft => .bind (.lift _) fun a => .bind (.lift _) fun v => ?_
    generalize v.seek (.start o) = q
    obtain ⟨x, v'⟩ := q
    cases x with
    | ok x =>
      dsimp only
      cases v'.dataPosition with
      | none => exact .fail _
      | some p => exact NFile.new_faithful hF _ _ _
    | err x => exact .fail _
    | panic x => exact .die _
    | diverge => exact .lift _

/-! ### Attribute lists -/

theorem ListEntry.new_faithful {σ : Type} {re : Nat → StM (σ × Dev) Bytes} (h : ∀ n, Faithful F k (re n))
    (p : Pos) : Faithful F k (ListEntry.new re p) :=
  .bind (h _) fun _ => .bind (.lift _) fun _ => .bind (.lift _) fun _ => .bind (h _) fun _ => .pure _

theorem AttrList.next_faithful (hF : ¬ F .interrupted) : Faithful F k AttrList.next := by
  rintro ⟨l, d⟩ hd
  cases l with
  | resident s p => exact .inl ⟨hd, rfl⟩
  | nonResident v =>
    rw [OnDevice.heal_pair]
    unfold AttrList.next AttrList.nextNonResident
    dsimp only
    by_cases hv : v.streamPosition ≥ v.len
    · rw [if_pos hv, if_pos hv]; exact .inl ⟨hd, rfl⟩
    rw [if_neg hv, if_neg hv]
    rcases ListEntry.new_faithful (F := F) (k := k) (NonRes.readExactAttached_faithful hF) v.dataPosition
      (v, d) hd with ⟨g1, g2⟩ | ⟨e, g1, g2⟩
    · rw [OnDevice.heal_pair] at g2
      rw [g2]
      generalize ListEntry.new NonRes.readExactAttached v.dataPosition (v, d) = q at g1
      obtain ⟨x, ⟨v', d'⟩⟩ := q
      cases x with
      | ok e =>
        show _ ∨ _
        rw [OnDevice.heal_pair]
        dsimp only
        generalize v.seek (.current e.length) = q
        obtain ⟨x, w⟩ := q
        cases x <;> exact .inl ⟨g1, rfl⟩
      | err x => exact .inl ⟨g1, rfl⟩
      | panic x => exact .inl ⟨g1, rfl⟩
      | diverge => exact .inl ⟨g1, rfl⟩
    · refine .inr ⟨e, g1, ?_⟩
      generalize ListEntry.new NonRes.readExactAttached v.dataPosition (v, d) = q at g2
      obtain ⟨x, ⟨v', d'⟩⟩ := q
      dsimp only at g2
      rw [g2]

theorem ALVal.nextConnected_faithful (hF : ¬ F .interrupted) : Faithful F k ALVal.nextConnected := by
  rintro ⟨v, d⟩ hd
  rw [OnDevice.heal_pair]
  unfold ALVal.nextConnected
  dsimp only
  cases v.connected with
  | none => exact .inl ⟨hd, rfl⟩
  | some l =>
    dsimp only
    rcases AttrList.next_faithful (F := F) (k := k) hF (l, d) hd with ⟨g1, g2⟩ | ⟨e, g1, g2⟩
    · rw [OnDevice.heal_pair] at g2
      rw [g2]
      generalize AttrList.next (l, d) = q at g1
      obtain ⟨x, ⟨l', d'⟩⟩ := q
      cases x with
      | ok o =>
        cases o with
        | none => exact .inl ⟨g1, rfl⟩
        | some e =>
          rw [OnDevice.heal_pair]
          dsimp only
          by_cases hi : e.inst = v.inst
          · rw [if_pos hi, if_pos hi]
            cases e.ty with
            | ok t =>
              dsimp only
              by_cases ht : t = v.ty
              · rw [if_pos ht, if_pos ht]; exact .inl ⟨g1, rfl⟩
              · rw [if_neg ht, if_neg ht]; exact .inl ⟨g1, rfl⟩
            | err x => exact .inl ⟨g1, rfl⟩
            | panic x => exact .inl ⟨g1, rfl⟩
            | diverge => exact .inl ⟨g1, rfl⟩
          · rw [if_neg hi, if_neg hi]; exact .inl ⟨g1, rfl⟩
      | err x => exact .inl ⟨g1, rfl⟩
      | panic x => exact .inl ⟨g1, rfl⟩
      | diverge => exact .inl ⟨g1, rfl⟩
    · refine .inr ⟨e, g1, ?_⟩
      generalize AttrList.next (l, d) = q at g2
      obtain ⟨x, ⟨v', d'⟩⟩ := q
      dsimp only at g2
      rw [g2]

theorem ALVal.openEntry_faithful (hF : ¬ F .interrupted) (n : Ntfs) (e : ListEntry) :
    Faithful F k (ALVal.openEntry n e) := by
  unfold ALVal.openEntry
  refine .bind (Ntfs.file_faithful hF _ _) fun f => .bind (.lift _) fun a => .bind (.lift _) fun b => ?_
  refine .ite (.fail _) (.bind (.lift _) fun x => ?_)
  obtain ⟨data, p⟩ := x
  dsimp only
  generalize (DataRuns.new n.clusterSize data p).next = q
  obtain ⟨x, runs⟩ := q
  cases x with
  | none => exact .pure _
  | some r => exact .bind (.lift _) fun _ => .pure _

theorem ALVal.nextAttribute_faithful (hF : ¬ F .interrupted) : Faithful F k ALVal.nextAttribute := by
  unfold ALVal.nextAttribute
  refine .bind (ALVal.nextConnected_faithful hF) fun o => ?_
  cases o with
  | none => exact .pure _
  | some e =>
    rintro ⟨v, d⟩ hd
    rw [OnDevice.heal_pair]
    dsimp only
    rcases ALVal.openEntry_faithful (F := F) (k := k) hF v.ntfs e d hd with ⟨g1, g2⟩ | ⟨x, g1, g2⟩
    · rw [OnDevice.heal_dev] at g2
      rw [g2]
      generalize ALVal.openEntry v.ntfs e d = q at g1
      obtain ⟨x, d'⟩ := q
      cases x with
      | ok o => cases o <;> exact .inl ⟨g1, rfl⟩
      | err x => exact .inl ⟨g1, rfl⟩
      | panic x => exact .inl ⟨g1, rfl⟩
      | diverge => exact .inl ⟨g1, rfl⟩
    · refine .inr ⟨x, g1, ?_⟩
      generalize ALVal.openEntry v.ntfs e d = q at g2
      obtain ⟨x, d'⟩ := q
      dsimp only at g2
      rw [g2]

theorem ALVal.advance_faithful (hF : ¬ F .interrupted) (v : ALVal) (d : Dev) (hd : d.FailsIn F) :
    ((v.advance d).2.2.FailsIn F ∧
      v.advance (d.heal k) = ((v.advance d).1, (v.advance d).2.1, (v.advance d).2.2.heal k)) ∨
    ∃ e, F e ∧ (v.advance d).1 = .err (.io e) := by
  unfold ALVal.advance
  generalize v.nextDataRun = q
  obtain ⟨x, v'⟩ := q
  cases x with
  | ok b =>
    cases b with
    | true => exact .inl ⟨hd, rfl⟩
    | false => exact ALVal.nextAttribute_faithful (F := F) (k := k) hF (v', d) hd
  | err x => exact .inl ⟨hd, rfl⟩
  | panic x => exact .inl ⟨hd, rfl⟩
  | diverge => exact .inl ⟨hd, rfl⟩

theorem ALVal.new_faithful (hF : ¬ F .interrupted) (n : Ntfs) (l : AttrList) (i : Nat) (t : AttrType)
    (size : Nat) : Faithful F k (ALVal.new n l i t size) := by
  intro d hd
  rw [OnDevice.heal_dev]
  unfold ALVal.new
  dsimp only
  obtain ⟨v, hv⟩ : ∃ v : ALVal, v =
    { ntfs := n, initial := l, connected := some l, inst := i, ty := t, dataSize := size,
      attrState := none, st := StreamState.new size } := ⟨_, rfl⟩
  rw [← hv]
  rcases ALVal.nextAttribute_faithful (F := F) (k := k) hF (v, d) hd with ⟨g1, g2⟩ | ⟨x, g1, g2⟩
  · rw [OnDevice.heal_pair] at g2
    rw [g2]
    generalize ALVal.nextAttribute (v, d) = q at g1
    obtain ⟨x, v', d'⟩ := q
    cases x <;> exact .inl ⟨g1, rfl⟩
  · refine .inr ⟨x, g1, ?_⟩
    generalize ALVal.nextAttribute (v, d) = q at g2
    obtain ⟨x, v', d'⟩ := q
    dsimp only at g2
    rw [g2]

theorem ALVal.readLoop_faithful (hF : ¬ F .interrupted) (fuel : Nat) (v : ALVal) (buf : Bytes) (br : Nat)
    (d : Dev) (hd : d.FailsIn F) :
    ((ALVal.readLoop fuel v buf br d).2.2.2.FailsIn F ∧ ALVal.readLoop fuel v buf br (d.heal k) =
      ((ALVal.readLoop fuel v buf br d).1, (ALVal.readLoop fuel v buf br d).2.1,
        (ALVal.readLoop fuel v buf br d).2.2.1, (ALVal.readLoop fuel v buf br d).2.2.2.heal k)) ∨
    ∃ e, F e ∧ (ALVal.readLoop fuel v buf br d).1 = .err (.io e) := by
  induction fuel generalizing v buf br d with
  | zero => exact .inl ⟨hd, rfl⟩
  | succ fuel ih =>
    unfold ALVal.readLoop
    by_cases hb : br < buf.length
    · rw [if_pos hb, if_pos hb]
      rcases readDataRun_faithful (F := F) (k := k) v.st buf br d hd with ⟨g1, g2⟩ | ⟨e, g1, g2⟩
      · rw [g2]
        generalize v.st.readDataRun buf br d = q at g1
        obtain ⟨x, st', buf', br', d'⟩ := q
        cases x with
        | ok b =>
          cases b with
          | true => exact ih _ _ _ _ g1
          | false =>
            dsimp only
            obtain ⟨w, hw⟩ : ∃ w : ALVal, w = { v with st := st' } := ⟨_, rfl⟩
            rw [← hw]
            rcases ALVal.advance_faithful (k := k) hF w d' g1 with ⟨i1, i2⟩ | ⟨e, i1, i2⟩
            · rw [i2]
              generalize w.advance d' = q at i1
              obtain ⟨x, v', d''⟩ := q
              cases x with
              | ok b =>
                cases b with
                | true => exact ih _ _ _ _ i1
                | false => exact .inl ⟨i1, rfl⟩
              | err x => exact .inl ⟨i1, rfl⟩
              | panic x => exact .inl ⟨i1, rfl⟩
              | diverge => exact .inl ⟨i1, rfl⟩
            · refine .inr ⟨e, i1, ?_⟩
              generalize w.advance d' = q at i2
              obtain ⟨x, v', d''⟩ := q
              dsimp only at i2
              rw [i2]
        | err x => exact .inl ⟨g1, rfl⟩
        | panic x => exact .inl ⟨g1, rfl⟩
        | diverge => exact .inl ⟨g1, rfl⟩
      · refine .inr ⟨e, g1, ?_⟩
        generalize v.st.readDataRun buf br d = q at g2
        obtain ⟨x, st', buf', br', d'⟩ := q
        dsimp only at g2
        rw [g2]
    · rw [if_neg hb, if_neg hb]; exact .inl ⟨hd, rfl⟩

theorem ALVal.seekLoop_faithful (hF : ¬ F .interrupted) (fuel : Nat) (v : ALVal) (pos : SeekFrom) (left : Nat)
    (d : Dev) (hd : d.FailsIn F) :
    ((ALVal.seekLoop fuel v pos left d).2.2.FailsIn F ∧ ALVal.seekLoop fuel v pos left (d.heal k) =
      ((ALVal.seekLoop fuel v pos left d).1, (ALVal.seekLoop fuel v pos left d).2.1,
        (ALVal.seekLoop fuel v pos left d).2.2.heal k)) ∨
    ∃ e, F e ∧ (ALVal.seekLoop fuel v pos left d).1 = .err (.io e) := by
  induction fuel generalizing v left d with
  | zero => exact .inl ⟨hd, rfl⟩
  | succ fuel ih =>
    unfold ALVal.seekLoop
    by_cases hb : left > 0
    · rw [if_pos hb, if_pos hb]
      generalize v.st.seekDataRun pos left = q
      obtain ⟨x, st', left'⟩ := q
      cases x with
      | ok b =>
        cases b with
        | true => exact .inl ⟨hd, rfl⟩
        | false =>
          dsimp only
          obtain ⟨w, hw⟩ : ∃ w : ALVal, w = { v with st := st' } := ⟨_, rfl⟩
          rw [← hw]
          rcases ALVal.advance_faithful (k := k) hF w d hd with ⟨i1, i2⟩ | ⟨e, i1, i2⟩
          · rw [i2]
            generalize w.advance d = q at i1
            obtain ⟨x, v', d''⟩ := q
            cases x with
            | ok b =>
              cases b with
              | true => exact ih _ _ _ i1
              | false => exact .inl ⟨i1, rfl⟩
            | err x => exact .inl ⟨i1, rfl⟩
            | panic x => exact .inl ⟨i1, rfl⟩
            | diverge => exact .inl ⟨i1, rfl⟩
          · refine .inr ⟨e, i1, ?_⟩
            generalize w.advance d = q at i2
            obtain ⟨x, v', d''⟩ := q
            dsimp only at i2
            rw [i2]
      | err x => exact .inl ⟨hd, rfl⟩
      | panic x => exact .inl ⟨hd, rfl⟩
      | diverge => exact .inl ⟨hd, rfl⟩
    · rw [if_neg hb, if_neg hb]; exact .inl ⟨hd, rfl⟩

theorem ALVal.rewind_faithful (hF : ¬ F .interrupted) (v : ALVal) (d : Dev) (hd : d.FailsIn F) :
    ((v.rewind d).2.2.FailsIn F ∧
      v.rewind (d.heal k) = ((v.rewind d).1, (v.rewind d).2.1, (v.rewind d).2.2.heal k)) ∨
    ∃ e, F e ∧ (v.rewind d).1 = .err (.io e) := by
  unfold ALVal.rewind
  obtain ⟨w, hw⟩ : ∃ w : ALVal, w = { v with connected := some v.initial, st := StreamState.new v.len } :=
    ⟨_, rfl⟩
  rw [← hw]
  rcases ALVal.nextAttribute_faithful (F := F) (k := k) hF (w, d) hd with ⟨g1, g2⟩ | ⟨x, g1, g2⟩
  · rw [OnDevice.heal_pair] at g2
    rw [g2]
    generalize ALVal.nextAttribute (w, d) = q at g1
    obtain ⟨x, v', d'⟩ := q
    cases x <;> exact .inl ⟨g1, rfl⟩
  · refine .inr ⟨x, g1, ?_⟩
    generalize ALVal.nextAttribute (w, d) = q at g2
    obtain ⟨x, v', d'⟩ := q
    dsimp only at g2
    rw [g2]

theorem ALVal.seek_faithful (hF : ¬ F .interrupted) (v : ALVal) (pos : SeekFrom) (d : Dev)
    (hd : d.FailsIn F) :
    ((v.seek pos d).2.2.FailsIn F ∧
      v.seek pos (d.heal k) = ((v.seek pos d).1, (v.seek pos d).2.1, (v.seek pos d).2.2.heal k)) ∨
    ∃ e, F e ∧ (v.seek pos d).1 = .err (.io e) := by
  unfold ALVal.seek
  generalize v.st.optimizeSeek pos v.len = q
  cases q with
  | err x => exact .inl ⟨hd, rfl⟩
  | panic x => exact .inl ⟨hd, rfl⟩
  | diverge => exact .inl ⟨hd, rfl⟩
  | ok s =>
    cases s with
    | end_ n => exact .inl ⟨hd, rfl⟩
    | start n =>
      dsimp only
      rcases ALVal.rewind_faithful (k := k) hF v d hd with ⟨g1, g2⟩ | ⟨x, g1, g2⟩
      · rw [g2]
        generalize v.rewind d = q at g1
        obtain ⟨x, v1, d1⟩ := q
        cases x with
        | ok u =>
          dsimp only
          rcases ALVal.seekLoop_faithful (k := k) hF v.runFuel v1 (.start n) n d1 g1 with ⟨i1, i2⟩ | ⟨e, i1, i2⟩
          · rw [i2]
            generalize ALVal.seekLoop v.runFuel v1 (.start n) n d1 = q at i1
            obtain ⟨x, v2, d2⟩ := q
            cases x <;> exact .inl ⟨i1, rfl⟩
          · refine .inr ⟨e, i1, ?_⟩
            generalize ALVal.seekLoop v.runFuel v1 (.start n) n d1 = q at i2
            obtain ⟨x, v2, d2⟩ := q
            dsimp only at i2
            rw [i2]
        | err x => exact .inl ⟨g1, rfl⟩
        | panic x => exact .inl ⟨g1, rfl⟩
        | diverge => exact .inl ⟨g1, rfl⟩
      · refine .inr ⟨x, g1, ?_⟩
        generalize v.rewind d = q at g2
        obtain ⟨x, v1, d1⟩ := q
        dsimp only at g2
        rw [g2]
    | current n =>
      dsimp only
      by_cases hn : 0 ≤ n
      · rw [if_pos hn, if_pos hn]
        rcases ALVal.seekLoop_faithful (k := k) hF v.runFuel v (.current n) n.toNat d hd with ⟨i1, i2⟩ | ⟨e, i1, i2⟩
        · rw [i2]
          generalize ALVal.seekLoop v.runFuel v (.current n) n.toNat d = q at i1
          obtain ⟨x, v2, d2⟩ := q
          cases x with
          | ok u =>
            dsimp only
            by_cases hu : v2.st.streamPosition + n.toNat < U64
            · rw [if_pos hu, if_pos hu]; exact .inl ⟨i1, rfl⟩
            · rw [if_neg hu, if_neg hu]; exact .inl ⟨i1, rfl⟩
          | err x => exact .inl ⟨i1, rfl⟩
          | panic x => exact .inl ⟨i1, rfl⟩
          | diverge => exact .inl ⟨i1, rfl⟩
        · refine .inr ⟨e, i1, ?_⟩
          generalize ALVal.seekLoop v.runFuel v (.current n) n.toNat d = q at i2
          obtain ⟨x, v2, d2⟩ := q
          dsimp only at i2
          rw [i2]
      · rw [if_neg hn, if_neg hn]; exact .inl ⟨hd, rfl⟩

/-! ### Values -/

theorem Val.readFn_faithful (hF : ¬ F .interrupted) : FaithfulRead F k Val.readFn := by
  intro v d buf hd
  match v with
  | .simple (.res r) => exact .inl ⟨hd, rfl⟩
  | .simple (.nonRes v) =>
    unfold Val.readFn Val.read SVal.read NonRes.read
    dsimp only
    rcases NonRes.readLoop_faithful (F := F) (k := k) (buf.length + v.data.length + v.runs.data.length + 2) v buf 0 d hd with
      ⟨g1, g2⟩ | ⟨e, g1, g2⟩
    · rw [g2]
      exact .inl ⟨g1, rfl⟩
    · exact .inr ⟨e, g1, g2⟩
  | .list v =>
    unfold Val.readFn Val.read ALVal.read
    dsimp only
    rcases ALVal.readLoop_faithful (F := F) (k := k) hF (buf.length + v.runFuel + v.leftFuel) v buf 0 d hd with
      ⟨g1, g2⟩ | ⟨e, g1, g2⟩
    · rw [g2]
      exact .inl ⟨g1, rfl⟩
    · exact .inr ⟨e, g1, g2⟩

theorem Val.seek_faithful (hF : ¬ F .interrupted) (v : Val) (pos : SeekFrom) (d : Dev)
    (hd : d.FailsIn F) :
    ((v.seek pos d).2.2.FailsIn F ∧
      v.seek pos (d.heal k) = ((v.seek pos d).1, (v.seek pos d).2.1, (v.seek pos d).2.2.heal k)) ∨
    ∃ e, F e ∧ (v.seek pos d).1 = .err (.io e) := by
  cases v with
  | simple v => exact .inl ⟨hd, rfl⟩
  | list v =>
    unfold Val.seek
    dsimp only
    rcases ALVal.seek_faithful (k := k) hF v pos d hd with ⟨g1, g2⟩ | ⟨e, g1, g2⟩
    · rw [g2]
      exact .inl ⟨g1, rfl⟩
    · exact .inr ⟨e, g1, g2⟩

theorem Val.readExactAttached_faithful (hF : ¬ F .interrupted) (n : Nat) :
    Faithful F k (Val.readExactAttached n) := by
  refine Faithful.ofReadExact (n := n) hF (Val.readFn_faithful hF) ?_
  intro v d
  unfold Val.readExactAttached Val.readExact
  dsimp only
  rw [List.length_replicate]
  rcases readExactLoop Val.readFn (n + d.sched.length + 1) (v, d) [] (List.replicate n 0) with
    ⟨r, s, b⟩
  cases r <;> rfl

theorem Val.readInto_faithful (hF : ¬ F .interrupted) (v : Val) (n : Nat) :
    Faithful F k (v.readInto n) := by
  intro d hd
  have hl : (Dev.heal k d).sched.length = d.sched.length := by simp [Dev.heal]
  rw [OnDevice.heal_dev]
  unfold Val.readInto Val.readExact
  rw [hl, List.length_replicate]
  rcases readExactLoop_faithful (k := k) hF (Val.readFn_faithful hF) (n + d.sched.length + 1) v d []
    (List.replicate n 0) hd with ⟨g1, g2⟩ | ⟨e, g1, g2⟩
  · rw [g2]
    generalize readExactLoop Val.readFn (n + d.sched.length + 1) (v, d) [] (List.replicate n 0) = q at g1
    obtain ⟨x, ⟨s', d'⟩, buf'⟩ := q
    cases x <;> exact .inl ⟨g1, rfl⟩
  · refine .inr ⟨e, g1, ?_⟩
    generalize readExactLoop Val.readFn (n + d.sched.length + 1) (v, d) [] (List.replicate n 0) = q at g2
    obtain ⟨x, ⟨s', d'⟩, buf'⟩ := q
    dsimp only at g2
    rw [g2]

theorem Attr.value_faithful (hF : ¬ F .interrupted) (a : Attr) : Faithful F k a.value := by
  unfold Attr.value
  cases a.list with
  | none => exact .bind (.lift _) fun _ => .pure _
  | some l =>
    exact .bind (.lift _) fun _ => .bind (.lift _) fun _ => .bind (.lift _) fun _ =>
      .bind (ALVal.new_faithful hF _ _ _ _ _) fun _ => .pure _

theorem Attr.attributeList_faithful (hF : ¬ F .interrupted) (a : Attr) :
    Faithful F k a.attributeList :=
  .bind (.lift _) fun _ => .bind (Attr.value_faithful hF a) fun _ => .lift _

/-! ### The flattened attributes -/

theorem Attrs.itemOf_faithful (hF : ¬ F .interrupted) (it : Attrs) (l : AttrList) (e : ListEntry)
    (t : AttrType) : Faithful F k (it.itemOf l e t) :=
  .bind (Ntfs.file_faithful hF _ _) fun _ => .bind (.lift _) fun _ => .bind (.lift _) fun _ =>
    .ite (.pure _) (.pure _)

theorem Attrs.nextInList_faithful (hF : ¬ F .interrupted) (fuel : Nat) (l : AttrList) :
    Faithful F k (Attrs.nextInList fuel l) := by
  induction fuel generalizing l with
  | zero => exact fun _ h => .inl ⟨h, rfl⟩
  | succ fuel ih =>
    rintro ⟨it, d⟩ hd
    rw [OnDevice.heal_pair]
    unfold Attrs.nextInList
    dsimp only
    rcases AttrList.next_faithful (F := F) (k := k) hF (l, d) hd with ⟨g1, g2⟩ | ⟨e, g1, g2⟩
    · rw [OnDevice.heal_pair] at g2
      rw [g2]
      generalize AttrList.next (l, d) = q at g1
      obtain ⟨x, ⟨l', d'⟩⟩ := q
      cases x with
      | ok o =>
        cases o with
        | none => exact .inl ⟨g1, rfl⟩
        | some e =>
          rw [OnDevice.heal_pair]
          dsimp only
          cases e.ty with
          | ok t =>
            dsimp only
            by_cases h1 : e.ref.fileRecordNumber = it.raw.file.number
            · rw [if_pos h1, if_pos h1]; exact ih _ _ g1
            rw [if_neg h1, if_neg h1]
            by_cases h2 : it.skip = some (e.inst, t)
            · rw [if_pos h2, if_pos h2]; exact ih _ _ g1
            rw [if_neg h2, if_neg h2]
            rcases Attrs.itemOf_faithful (F := F) (k := k) hF it l e t d' g1 with ⟨i1, i2⟩ | ⟨x, i1, i2⟩
            · rw [OnDevice.heal_dev] at i2
              rw [i2]
              generalize it.itemOf l e t d' = q at i1
              obtain ⟨x, d''⟩ := q
              cases x <;> exact .inl ⟨i1, rfl⟩
            · refine .inr ⟨x, i1, ?_⟩
              generalize it.itemOf l e t d' = q at i2
              obtain ⟨x, d''⟩ := q
              dsimp only at i2
              rw [i2]
          | err x => exact .inl ⟨g1, rfl⟩
          | panic x => exact .inl ⟨g1, rfl⟩
          | diverge => exact .inl ⟨g1, rfl⟩
      | err x => exact .inl ⟨g1, rfl⟩
      | panic x => exact .inl ⟨g1, rfl⟩
      | diverge => exact .inl ⟨g1, rfl⟩
    · refine .inr ⟨e, g1, ?_⟩
      generalize AttrList.next (l, d) = q at g2
      obtain ⟨x, ⟨v', d'⟩⟩ := q
      dsimp only at g2
      rw [g2]

theorem Attrs.nextFromList_faithful (hF : ¬ F .interrupted) : Faithful F k Attrs.nextFromList := by
  rintro ⟨it, d⟩ hd
  rw [OnDevice.heal_pair]
  unfold Attrs.nextFromList
  dsimp only
  cases it.list with
  | none => exact .inl ⟨hd, rfl⟩
  | some l => exact Attrs.nextInList_faithful (F := F) (k := k) hF _ _ (it, d) hd

theorem Attrs.nextLoop_faithful (hF : ¬ F .interrupted) (fuel : Nat) :
    Faithful F k (Attrs.nextLoop fuel) := by
  induction fuel with
  | zero => exact fun _ h => .inl ⟨h, rfl⟩
  | succ fuel ih =>
    unfold Attrs.nextLoop
    refine .bind (Attrs.nextFromList_faithful hF) fun o => ?_
    cases o with
    | some item => exact .pure _
    | none =>
      rintro ⟨it, d⟩ hd
      rw [OnDevice.heal_pair]
      dsimp only
      generalize it.raw.next = q
      obtain ⟨x, raw'⟩ := q
      cases x with
      | none => exact .inl ⟨hd, rfl⟩
      | some x =>
        cases x with
        | ok a =>
          dsimp only
          cases a.ty with
          | ok t =>
            by_cases ht : t = .attributeList
            · subst ht
              dsimp only
              rcases Attr.attributeList_faithful (F := F) (k := k) hF a d hd with ⟨i1, i2⟩ | ⟨x, i1, i2⟩
              · rw [OnDevice.heal_dev] at i2
                rw [i2]
                generalize a.attributeList d = q at i1
                obtain ⟨x, d'⟩ := q
                cases x with
                | ok l => exact ih _ i1
                | err x => exact .inl ⟨i1, rfl⟩
                | panic x => exact .inl ⟨i1, rfl⟩
                | diverge => exact .inl ⟨i1, rfl⟩
              · refine .inr ⟨x, i1, ?_⟩
                generalize a.attributeList d = q at i2
                obtain ⟨x, d'⟩ := q
                dsimp only at i2
                rw [i2]
            · cases t <;> first | exact absurd rfl ht | exact .inl ⟨hd, rfl⟩
          | err x => exact .inl ⟨hd, rfl⟩
          | panic x => exact .inl ⟨hd, rfl⟩
          | diverge => exact .inl ⟨hd, rfl⟩
        | err x => exact .inl ⟨hd, rfl⟩
        | panic x => exact .inl ⟨hd, rfl⟩
        | diverge => exact .inl ⟨hd, rfl⟩

theorem Attrs.next_faithful (hF : ¬ F .interrupted) : Faithful F k Attrs.next := by
  rintro ⟨it, d⟩ hd
  exact Attrs.nextLoop_faithful (F := F) (k := k) hF _ (it, d) hd

theorem Attrs.search_faithful {α : Type} (hF : ¬ F .interrupted) {pick : AttrItem → Attr → StM Dev (Option α)}
    (hp : ∀ i a, Faithful F k (pick i a)) (fuel : Nat) : Faithful F k (Attrs.search pick fuel) := by
  induction fuel with
  | zero => exact fun _ h => .inl ⟨h, rfl⟩
  | succ fuel ih =>
    unfold Attrs.search
    refine .bind (Attrs.next_faithful hF) fun o => ?_
    cases o with
    | none => exact .pure _
    | some item =>
      refine .bind (.lift _) fun a => .bind (.onDev (hp _ _)) fun o => ?_
      cases o with
      | some x => exact .pure _
      | none => exact ih

theorem NFile.search_faithful {α : Type} (hF : ¬ F .interrupted) (f : NFile)
    {pick : AttrItem → Attr → StM Dev (Option α)}
    (hp : ∀ i a, Faithful F k (pick i a)) (fuel : Nat) : Faithful F k (f.search pick fuel) := by
  intro d hd
  rw [OnDevice.heal_dev]
  unfold NFile.search
  cases f.attributes with
  | ok it =>
    dsimp only
    rcases Attrs.search_faithful (k := k) hF hp fuel (it, d) hd with ⟨i1, i2⟩ | ⟨x, i1, i2⟩
    · rw [OnDevice.heal_pair] at i2
      rw [i2]
      exact .inl ⟨i1, rfl⟩
    · exact .inr ⟨x, i1, i2⟩
  | err x => exact .inl ⟨hd, rfl⟩
  | panic x => exact .inl ⟨hd, rfl⟩
  | diverge => exact .inl ⟨hd, rfl⟩

theorem NFile.dataItem_faithful (hF : ¬ F .interrupted) (f : NFile) (asked : List Nat) (fuel : Nat) :
    Faithful F k (f.dataItem asked fuel) :=
  NFile.search_faithful hF f (fun _ _ => .lift _) fuel

theorem NFile.findAttribute_faithful (hF : ¬ F .interrupted) (f : NFile) (ty : AttrType)
    (name : Option (List Nat)) (fuel : Nat) : Faithful F k (f.findAttribute ty name fuel) := by
  unfold NFile.findAttribute
  refine .bind (NFile.search_faithful hF f (fun _ _ => .lift _) fuel) fun o => ?_
  cases o with
  | some item => exact .pure _
  | none => exact .fail _

/-! ### Structured values -/

/-- A structured value that is decoded by reading only. -/
def Structured.Reads {α : Type} (S : Structured α) : Prop :=
  ∀ (F : IoErr → Prop) (k : Nat) (re : Nat → StM (Val × Dev) Bytes), (∀ n, Faithful F k (re n)) →
    ∀ p len, Faithful F k (S.new re p len)

theorem StdInfo.reads : StdInfo.structured.Reads := by
  intro F k re h p len
  show Faithful F k (StdInfo.new re p len)
  unfold StdInfo.new
  refine .ite (.fail _) (.bind (h _) fun _ => .bind (.lift _) fun _ => ?_)
  refine .ite ?_ ?_
  · exact .bind (h _) fun _ => .bind (.lift _) fun _ => .pure _
  · exact .pure _

theorem FileName.reads : FileName.structured.Reads := by
  intro F k re h p len
  show Faithful F k (FileName.new re p len)
  unfold FileName.new
  exact .ite (.fail _) (.bind (h _) fun _ => .bind (.lift _) fun _ => .bind (.lift _) fun _ =>
    .bind (.lift _) fun _ => .bind (h _) fun _ => .pure _)

theorem VolumeInfo.reads : VolumeInfo.structured.Reads := by
  intro F k re h p len
  show Faithful F k (VolumeInfo.new re p len)
  unfold VolumeInfo.new
  exact .ite (.fail _) (.bind (h _) fun _ => .lift _)

theorem VolumeName.reads : VolumeName.structured.Reads := by
  intro F k re h p len
  show Faithful F k (VolumeName.new re p len)
  unfold VolumeName.new
  exact .ite (.fail _) (.bind (h _) fun _ => .pure _)

theorem ObjectId.reads : ObjectId.structured.Reads := by
  intro F k re h p len
  show Faithful F k (ObjectId.new re p len)
  have hg : Faithful F k (ObjectId.readGuid re) := .bind (h _) fun _ => .lift _
  have hi : ∀ c, Faithful F k (ObjectId.readGuidIf re c) := fun c =>
    .ite (.bind hg fun _ => .pure _) (.pure _)
  unfold ObjectId.new
  exact .ite (.fail _) (.bind hg fun _ => .bind (hi _) fun _ => .bind (hi _) fun _ =>
    .bind (hi _) fun _ => .pure _)

theorem Attr.structuredValue_faithful {α : Type} (hF : ¬ F .interrupted) {S : Structured α} (hS : S.Reads)
    (a : Attr) : Faithful F k (a.structuredValue S) := by
  refine .bind (.lift _) fun _ => .bind (Attr.value_faithful hF a) fun v => ?_
  intro d hd
  have h := hS F k _ (Val.readExactAttached_faithful hF) v.dataPosition v.len (v, d) hd
  have e : ∀ d, S.ofValue v d = ((S.new Val.readExactAttached v.dataPosition v.len (v, d)).1,
    (S.new Val.readExactAttached v.dataPosition v.len (v, d)).2.2) := fun _ => rfl
  rw [OnDevice.heal_dev, e, e]
  rcases h with ⟨i1, i2⟩ | ⟨x, i1, i2⟩
  · rw [OnDevice.heal_pair] at i2
    rw [i2]
    exact .inl ⟨i1, rfl⟩
  · exact .inr ⟨x, i1, i2⟩

theorem NFile.fileName_faithful (hF : ¬ F .interrupted) (f : NFile) (ns : Option Namespace)
    (parent : Option Nat) (fuel : Nat) : Faithful F k (f.fileName ns parent fuel) := by
  refine NFile.search_faithful hF f (fun _ a => ?_) fuel
  exact .bind (.lift _) fun _ => .ite (.pure _) (.bind (Attr.structuredValue_faithful hF FileName.reads a)
    fun _ => .bind (.lift _) fun _ => .ite (.pure _) (.pure _))

/-! ### The volume -/

theorem Ntfs.volumeInfo_faithful (hF : ¬ F .interrupted) (n : Ntfs) : Faithful F k n.volumeInfo :=
  .bind (Ntfs.file_faithful hF _ _) fun _ => .lift _

theorem Ntfs.volumeName_faithful (hF : ¬ F .interrupted) (n : Ntfs) : Faithful F k n.volumeName := by
  refine .bind (Ntfs.file_faithful hF _ _) fun f => ?_
  cases f.findResidentStructured VolumeName.structured none with
  | ok v => exact .pure _
  | err e => cases e <;> first | exact .pure _ | exact .fail _
  | panic p => exact .die _
  | diverge => exact .lift _

theorem Ntfs.readUpcaseTable_faithful (hF : ¬ F .interrupted) (n : Ntfs) (fuel : Nat) :
    Faithful F k (n.readUpcaseTable fuel) := by
  refine .bind ?_ fun _ => .pure _
  refine .bind (Ntfs.file_faithful hF _ _) fun f => .bind (NFile.dataItem_faithful hF _ _ _) fun o => ?_
  cases o with
  | none => exact .fail _
  | some item =>
    exact .bind (.lift _) fun a => .bind (.lift _) fun len => .ite (.fail _)
      (.bind (Attr.value_faithful hF a) fun v => .bind (Val.readInto_faithful hF _ _) fun _ => .pure _)

/-! ### Indexes -/

theorem IndexAllocation.seekTo_faithful (hF : ¬ F .interrupted) (v : Val) (pos : SeekFrom) :
    Faithful F k (IndexAllocation.seekTo v pos) := by
  intro d hd
  rw [OnDevice.heal_dev]
  unfold IndexAllocation.seekTo
  rcases Val.seek_faithful (k := k) hF v pos d hd with ⟨i1, i2⟩ | ⟨x, i1, i2⟩
  · rw [i2]
    generalize v.seek pos d = q at i1
    obtain ⟨x, v', d'⟩ := q
    cases x <;> exact .inl ⟨i1, rfl⟩
  · refine .inr ⟨x, i1, ?_⟩
    generalize v.seek pos d = q at i2
    obtain ⟨x, v', d'⟩ := q
    dsimp only at i2
    rw [i2]

theorem IndexRecord.new_faithful (hF : ¬ F .interrupted) (v : Val) (size : Nat) :
    Faithful F k (IndexRecord.new v size) :=
  .bind (Val.readInto_faithful hF _ _) fun _ => .lift _

theorem IndexAllocation.recordFromVcn_faithful (hF : ¬ F .interrupted) (a : IndexAllocation) (size : Nat)
    (vcn : Int) : Faithful F k (a.recordFromVcn size vcn) :=
  .bind (.lift _) fun _ => .bind (IndexAllocation.seekTo_faithful hF _ _) fun _ => .ite (.fail _)
    (.bind (IndexRecord.new_faithful hF _ _) fun _ => .bind (.lift _) fun _ => .ite (.fail _) (.pure _))

theorem Index.subnode_faithful (hF : ¬ F .interrupted) (ix : Index) (vcn : Int) :
    Faithful F k (ix.subnode vcn) :=
  .bind (.lift _) fun _ => .bind (.lift _) fun a =>
    .bind (.bind (.lift _) fun _ => .bind (Attr.value_faithful hF a) fun _ => .lift _) fun _ =>
    .bind (IndexAllocation.recordFromVcn_faithful hF _ _ _) fun _ => .lift _

theorem IndexRecords.next_faithful (hF : ¬ F .interrupted) : Faithful F k IndexRecords.next := by
  rintro ⟨it, d⟩ hd
  rw [OnDevice.heal_pair]
  unfold IndexRecords.next
  dsimp only
  by_cases h0 : it.allocation.value.streamPosition ≥ it.allocation.value.len
  · rw [if_pos h0, if_pos h0]; exact .inl ⟨hd, rfl⟩
  rw [if_neg h0, if_neg h0]
  rcases IndexRecord.new_faithful (F := F) (k := k) hF it.allocation.value it.size d hd with
    ⟨i1, i2⟩ | ⟨x, i1, i2⟩
  · rw [OnDevice.heal_dev] at i2
    rw [i2]
    generalize IndexRecord.new it.allocation.value it.size d = q at i1
    obtain ⟨x, d1⟩ := q
    cases x with
    | ok r =>
      rw [OnDevice.heal_dev]
      dsimp only
      rcases Val.seek_faithful (k := k) hF it.allocation.value (.current it.size) d1 i1 with
        ⟨j1, j2⟩ | ⟨x, j1, j2⟩
      · rw [j2]
        generalize it.allocation.value.seek (.current it.size) d1 = q at j1
        obtain ⟨x, v', d'⟩ := q
        cases x <;> exact .inl ⟨j1, rfl⟩
      · refine .inr ⟨x, j1, ?_⟩
        generalize it.allocation.value.seek (.current it.size) d1 = q at j2
        obtain ⟨x, v', d'⟩ := q
        dsimp only at j2
        rw [j2]
    | err x => exact .inl ⟨i1, rfl⟩
    | panic x => exact .inl ⟨i1, rfl⟩
    | diverge => exact .inl ⟨i1, rfl⟩
  · refine .inr ⟨x, i1, ?_⟩
    generalize IndexRecord.new it.allocation.value it.size d = q at i2
    obtain ⟨x, d1⟩ := q
    dsimp only at i2
    rw [i2]

theorem IndexEntries.loop_faithful (hF : ¬ F .interrupted) (ix : Index) (fuel : Nat) :
    Faithful F k (IndexEntries.loop ix fuel) := by
  induction fuel with
  | zero => exact fun _ h => .inl ⟨h, rfl⟩
  | succ fuel ih =>
    rintro ⟨it, d⟩ hd
    rw [OnDevice.heal_pair]
    unfold IndexEntries.loop
    dsimp only
    cases it.inner with
    | nil => exact .inl ⟨hd, rfl⟩
    | cons top below =>
      dsimp only
      generalize top.next = q
      obtain ⟨x, top'⟩ := q
      cases x with
      | ok o =>
        cases o with
        | some r =>
          dsimp only
          cases IndexEntries.inspect r top'.data with
          | ok p =>
            obtain ⟨last, o⟩ := p
            cases o with
            | some vcn =>
              dsimp only
              rcases Index.subnode_faithful (F := F) (k := k) hF ix vcn d hd with ⟨i1, i2⟩ | ⟨x, i1, i2⟩
              · rw [OnDevice.heal_dev] at i2
                rw [i2]
                generalize ix.subnode vcn d = q at i1
                obtain ⟨x, d'⟩ := q
                cases x with
                | ok sub => exact ih _ i1
                | err x => exact .inl ⟨i1, rfl⟩
                | panic x => exact .inl ⟨i1, rfl⟩
                | diverge => exact .inl ⟨i1, rfl⟩
              · refine .inr ⟨x, i1, ?_⟩
                generalize ix.subnode vcn d = q at i2
                obtain ⟨x, d'⟩ := q
                dsimp only at i2
                rw [i2]
            | none =>
              dsimp only
              cases last with
              | true => exact ih _ hd
              | false => exact .inl ⟨hd, rfl⟩
          | err x => exact .inl ⟨hd, rfl⟩
          | panic x => exact .inl ⟨hd, rfl⟩
          | diverge => exact .inl ⟨hd, rfl⟩
        | none =>
          dsimp only
          cases it.following with
          | nil => exact .inl ⟨hd, rfl⟩
          | cons o rest =>
            cases o with
            | some r => exact .inl ⟨hd, rfl⟩
            | none => exact ih _ hd
      | err x => exact .inl ⟨hd, rfl⟩
      | panic x => exact .inl ⟨hd, rfl⟩
      | diverge => exact .inl ⟨hd, rfl⟩

theorem IndexEntries.next_faithful (hF : ¬ F .interrupted) (ix : Index) (fuel : Nat) :
    Faithful F k (IndexEntries.next ix fuel) := by
  rintro ⟨it, d⟩ hd
  rw [OnDevice.heal_pair]
  unfold IndexEntries.next
  rcases IndexEntries.loop_faithful (F := F) (k := k) hF ix fuel (it, d) hd with ⟨i1, i2⟩ | ⟨x, i1, i2⟩
  · rw [OnDevice.heal_pair] at i2
    rw [i2]
    generalize IndexEntries.loop ix fuel (it, d) = q at i1
    obtain ⟨x, it', d'⟩ := q
    cases x with
    | ok o =>
      cases o with
      | none => exact .inl ⟨i1, rfl⟩
      | some r =>
        rw [OnDevice.heal_pair]
        dsimp only
        cases IndexEntries.entryOf r it' <;> exact .inl ⟨i1, rfl⟩
    | err x => exact .inl ⟨i1, rfl⟩
    | panic x => exact .inl ⟨i1, rfl⟩
    | diverge => exact .inl ⟨i1, rfl⟩
  · refine .inr ⟨x, i1, ?_⟩
    generalize IndexEntries.loop ix fuel (it, d) = q at i2
    obtain ⟨x, it', d'⟩ := q
    dsimp only at i2
    rw [i2]

theorem Index.findLoop_faithful {κ : Type} (hF : ¬ F .interrupted) (key : Bytes → Pos → Res κ)
    (cmp : κ → Res Ordering) (ix : Index) (fuel : Nat) (it : NodeRanges) :
    Faithful F k (Index.findLoop key cmp ix fuel it) := by
  induction fuel generalizing it with
  | zero => exact .lift _
  | succ fuel ih =>
    intro d hd
    rw [OnDevice.heal_dev]
    simp only [Index.findLoop]
    generalize it.next = q
    obtain ⟨x, it'⟩ := q
    cases x with
    | ok o =>
      cases o with
      | none => exact .inl ⟨hd, rfl⟩
      | some r =>
        dsimp only
        cases r.toEntry it'.data with
        | ok e =>
          dsimp only
          cases Index.judge key cmp e with
          | ok o =>
            cases o with
            | some b =>
              cases b with
              | true => exact .inl ⟨hd, rfl⟩
              | false => exact ih _ _ hd
            | none =>
              dsimp only
              cases e.subnodeVcn with
              | ok o =>
                cases o with
                | none => exact .inl ⟨hd, rfl⟩
                | some vcn =>
                  dsimp only
                  rcases Index.subnode_faithful (F := F) (k := k) hF ix vcn d hd with
                    ⟨i1, i2⟩ | ⟨x, i1, i2⟩
                  · rw [OnDevice.heal_dev] at i2
                    rw [i2]
                    generalize ix.subnode vcn d = q at i1
                    obtain ⟨x, d'⟩ := q
                    cases x with
                    | ok sub => exact ih _ _ i1
                    | err x => exact .inl ⟨i1, rfl⟩
                    | panic x => exact .inl ⟨i1, rfl⟩
                    | diverge => exact .inl ⟨i1, rfl⟩
                  · refine .inr ⟨x, i1, ?_⟩
                    generalize ix.subnode vcn d = q at i2
                    obtain ⟨x, d'⟩ := q
                    dsimp only at i2
                    rw [i2]
              | err x => exact .inl ⟨hd, rfl⟩
              | panic x => exact .inl ⟨hd, rfl⟩
              | diverge => exact .inl ⟨hd, rfl⟩
          | err x => exact .inl ⟨hd, rfl⟩
          | panic x => exact .inl ⟨hd, rfl⟩
          | diverge => exact .inl ⟨hd, rfl⟩
        | err x => exact .inl ⟨hd, rfl⟩
        | panic x => exact .inl ⟨hd, rfl⟩
        | diverge => exact .inl ⟨hd, rfl⟩
    | err x => exact .inl ⟨hd, rfl⟩
    | panic x => exact .inl ⟨hd, rfl⟩
    | diverge => exact .inl ⟨hd, rfl⟩

theorem NFile.directoryIndex_faithful (hF : ¬ F .interrupted) (f : NFile) (fuel : Nat) :
    Faithful F k (f.directoryIndex fuel) := by
  refine .bind (.lift _) fun _ => .ite (.fail _) (.bind (NFile.findAttribute_faithful hF _ _ _ _) fun _ =>
    .bind (.lift _) fun _ => .bind (.lift _) fun root => .bind ?_ fun _ => .lift _)
  exact .bind (.lift _) fun _ => .ite (.bind (NFile.findAttribute_faithful hF _ _ _ _) fun _ => .pure _)
    (.pure _)

/-! ### The shell -/

theorem Shell.start_faithful (hF : ¬ F .interrupted) (fuel : Nat) : Faithful F k (Shell.start fuel) :=
  .bind (Ntfs.new_faithful hF) fun _ => .bind (Ntfs.readUpcaseTable_faithful hF _ _) fun _ =>
    .bind (Ntfs.file_faithful hF _ _) fun _ => .pure _

theorem bestFileName_faithful (hF : ¬ F .interrupted) (f : NFile) (parent fuel : Nat) :
    Faithful F k (bestFileName f parent fuel) := by
  have hl : ∀ ns, Faithful F k (bestLoop f parent fuel ns) := by
    intro ns
    induction ns with
    | nil => exact .pure _
    | cons n ns ih =>
      refine .bind (NFile.fileName_faithful hF _ _ _ _) fun o => ?_
      cases o with
      | some n => exact .pure _
      | none => exact ih
  refine .bind (hl _) fun o => ?_
  cases o <;> exact .pure _

theorem Index.findName_faithful (hF : ¬ F .interrupted) (ix : Index) (n : Ntfs) (name : List Nat)
    (fuel : Nat) : Faithful F k (ix.findName n name fuel) :=
  Index.findLoop_faithful hF _ _ _ _ _

theorem IEntry.toFile_faithful (hF : ¬ F .interrupted) (e : IEntry) (n : Ntfs) :
    Faithful F k (e.toFile n) :=
  .bind (.lift _) fun _ => Ntfs.file_faithful hF _ _

theorem Shell.parseFileArg_faithful (hF : ¬ F .interrupted) (s : Shell) (arg : List Char) (fuel : Nat) :
    Faithful F k (s.parseFileArg arg fuel) := by
  unfold Shell.parseFileArg
  refine .ite (.pure _) ?_
  cases stripPrefix ['/'] arg with
  | some number =>
    dsimp only
    cases parseRecordNumber number with
    | some n => exact .bind (Ntfs.file_faithful hF _ _) fun _ => .pure _
    | none => exact .pure _
  | none =>
    refine .bind (.lift _) fun _ => .bind (NFile.directoryIndex_faithful hF _ _) fun _ =>
      .bind (Index.findName_faithful hF _ _ _ _) fun o => ?_
    cases o with
    | some e => exact .bind (IEntry.toFile_faithful hF _ _) fun _ => .pure _
    | none => exact .pure _

theorem Shell.cd_faithful (hF : ¬ F .interrupted) (s : Shell) (arg : List Char) (fuel : Nat) :
    Faithful F k (s.cd arg fuel) := by
  refine .ite (.pure _) (.ite (.ite (.pure _) (.pure _)) ?_)
  refine .bind (.lift _) fun _ => .bind (NFile.directoryIndex_faithful hF _ _) fun _ =>
    .bind (Index.findName_faithful hF _ _ _ _) fun o => ?_
  cases o with
  | none => exact .pure _
  | some e =>
    refine .bind (.lift _) fun _ => .ite (.pure _) (.bind (IEntry.toFile_faithful hF _ _) fun _ =>
      .bind (bestFileName_faithful hF _ _ _) fun o => ?_)
    cases o <;> exact .pure _

theorem Shell.openData_faithful (hF : ¬ F .interrupted) (s : Shell) (file stream : List Char) (fuel : Nat) :
    Faithful F k (s.openData file stream fuel) := by
  refine .bind (Shell.parseFileArg_faithful hF _ _ _) fun o => ?_
  cases o with
  | error m => exact .pure _
  | ok f =>
    refine .bind (NFile.dataItem_faithful hF _ _ _) fun o => ?_
    cases o with
    | none => exact .pure _
    | some item => exact .bind (.lift _) fun _ => .bind (Attr.value_faithful hF _) fun _ => .pure _

end NT
