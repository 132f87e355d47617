import Verif.Lemmas.Quiet
import Verif.Lemmas.Split
import Verif.Model.Prog

/-! Every operation of the library is a program of requests in the sense of `Model/Prog.lean`. -/

namespace NT

theorem Prog.run_bind {σ β γ : Type} (h : Bool → Nat → Nat → StM σ Bytes) (t : Prog β) (f : β → Prog γ) (s : σ) :
    (t.bind f).run h s = (f (t.run h s).1).run h (t.run h s).2 := by
  induction t generalizing s with
  | done b => rfl
  | ask e p n k ih => exact ih _ _

theorem Dev.ask_quiet (e : Bool) (p n : Nat) : (Dev.ask e p n).Quiet :=
  .bind (Dev.seekStart_quiet p) fun _ => .ite (Dev.readExact_quiet n) (Dev.read_quiet n)

theorem Prog.run_calm {β : Type} (t : Prog β) (d : Dev) (hd : d.Calm) : (t.run Dev.ask d).2.Calm := by
  induction t generalizing d with
  | done b => exact hd
  | ask e p n k ih => exact ih _ _ (Dev.ask_quiet e p n d hd).2

/-- `f` behaves on calm devices like a program; `mk` says how the result of `f` is made from the result
of the program and the device. -/
def Asks {β γ : Type} (mk : β → Dev → γ) (f : Dev → γ) : Prop :=
  ∃ t : Prog β, ∀ d, d.Calm → f d = mk (t.run Dev.ask d).1 (t.run Dev.ask d).2

/-- `f` behaves on calm devices like a program, and has one and the same result on all devices with the same
bytes that do not fail, however they split their answers. -/
structure Rep {β γ : Type} (mk : β → Dev → γ) (f : Dev → γ) : Prop where
  asks : Asks mk f
  settled : ∀ img, img.length < U64 → SettledOn img mk f

theorem Dev.Ok.calm {img : Bytes} {d : Dev} (h : d.Ok img) : d.Calm := fun r hr => h.2 r hr _

namespace Asks

variable {β γ β' γ' : Type} {mk : β → Dev → γ} {mk' : β' → Dev → γ'}

theorem done (b : β) : Asks mk (mk b) := ⟨.done b, fun _ _ => rfl⟩

theorem congr {f g : Dev → γ} (hg : Asks mk g) (h : ∀ d, d.Calm → f d = g d) : Asks mk f := by
  obtain ⟨t, ht⟩ := hg
  exact ⟨t, fun d hd => (h d hd).trans (ht d hd)⟩

/-- First `f`, then something that depends only on the result of `f`. -/
theorem step {f : Dev → γ} {F : Dev → γ'} (hf : Asks mk f)
    (h : ∀ b, ∃ G, (∀ d d', d.Calm → d'.Calm → f d = mk b d' → F d = G d') ∧ Asks mk' G) : Asks mk' F := by
  obtain ⟨t, ht⟩ := hf
  have key : ∀ b, ∃ u : Prog β', ∀ d d', d.Calm → d'.Calm → f d = mk b d' →
      F d = mk' (u.run Dev.ask d').1 (u.run Dev.ask d').2 := by
    intro b
    obtain ⟨G, hG, u, hu⟩ := h b
    exact ⟨u, fun d d' h1 h2 h3 => (hG d d' h1 h2 h3).trans (hu d' h2)⟩
  refine ⟨t.bind fun b => Classical.choose (key b), fun d hd => ?_⟩
  rw [Prog.run_bind]
  exact Classical.choose_spec (key _) d _ hd (Prog.run_calm t d hd) (ht d hd)

theorem ite {c : Prop} [Decidable c] {f g : Dev → γ} (hf : c → Asks mk f) (hg : ¬ c → Asks mk g) :
    Asks mk (fun d => if c then f d else g d) := by
  by_cases hc : c
  · exact (hf hc).congr fun d _ => if_pos hc
  · exact (hg hc).congr fun d _ => if_neg hc

end Asks

namespace Rep

variable {β γ β' γ' : Type} {mk : β → Dev → γ} {mk' : β' → Dev → γ'}

theorem done (b : β) : Rep mk (mk b) := ⟨.done b, fun _ _ => .done b⟩

theorem congr {f g : Dev → γ} (hg : Rep mk g) (h : ∀ d, d.Calm → f d = g d) : Rep mk f := by
  refine ⟨hg.asks.congr h, fun img hi => ?_⟩
  obtain ⟨b, hb⟩ := hg.settled img hi
  refine ⟨b, fun d hd => ?_⟩
  rw [h d hd.calm]
  exact hb d hd

/-- First `f`, then something that depends only on the result of `f`. -/
theorem step {f : Dev → γ} {F : Dev → γ'} (hf : Rep mk f)
    (h : ∀ b, ∃ G, (∀ d d', d.Calm → d'.Calm → f d = mk b d' → F d = G d') ∧ Rep mk' G) : Rep mk' F := by
  refine ⟨hf.asks.step fun b => ?_, fun img hi => (hf.settled img hi).step fun b => ?_⟩
  · obtain ⟨G, h1, h2⟩ := h b
    exact ⟨G, h1, h2.asks⟩
  · obtain ⟨G, h1, h2⟩ := h b
    exact ⟨G, fun d d' k1 k2 => h1 d d' k1.calm k2.calm, h2.settled img hi⟩

theorem ite {c : Prop} [Decidable c] {f g : Dev → γ} (hf : c → Rep mk f) (hg : ¬ c → Rep mk g) :
    Rep mk (fun d => if c then f d else g d) := by
  by_cases hc : c
  · exact (hf hc).congr fun d _ => if_pos hc
  · exact (hg hc).congr fun d _ => if_neg hc

end Rep

/-! ### Operations on a device, with or without a state of their own -/

/-- The operation on a device behaves like a program. -/
def RepD {α : Type} (p : StM Dev α) : Prop := Rep Prod.mk p

/-- The operation on a state and a device behaves like a program, from every state. -/
def RepS {σ α : Type} (p : StM (σ × Dev) α) : Prop := ∀ s, Rep mk3 (fun d => p (s, d))

namespace RepD

theorem lift {α : Type} (x : Res α) : RepD (StM.lift x : StM Dev α) := Rep.done x
theorem pure {α : Type} (a : α) : RepD (Pure.pure a : StM Dev α) := Rep.done _
theorem fail {α : Type} (e : Err) : RepD (StM.fail e : StM Dev α) := Rep.done _
theorem die {α : Type} (p : Panic) : RepD (StM.die p : StM Dev α) := Rep.done _

theorem bind {α β : Type} {p : StM Dev α} {f : α → StM Dev β} (hp : RepD p) (hf : ∀ a, RepD (f a)) :
    RepD (p >>= f) := by
  refine Rep.step hp fun b => ?_
  cases b with
  | ok a => exact ⟨_, fun d d' _ _ h => by rw [StM.bind_apply, h], hf a⟩
  | err e => exact ⟨_, fun d d' _ _ h => by rw [StM.bind_apply, h], Rep.done (.err e)⟩
  | panic e => exact ⟨_, fun d d' _ _ h => by rw [StM.bind_apply, h], Rep.done (.panic e)⟩
  | diverge => exact ⟨_, fun d d' _ _ h => by rw [StM.bind_apply, h], Rep.done .diverge⟩

theorem ite {α : Type} {c : Prop} [Decidable c] {p q : StM Dev α} (hp : RepD p) (hq : RepD q) :
    RepD (if c then p else q) := by
  split
  · exact hp
  · exact hq

end RepD

namespace RepS

variable {σ : Type}

theorem lift {α : Type} (x : Res α) : RepS (StM.lift x : StM (σ × Dev) α) := fun s => Rep.done (x, s)
theorem pure {α : Type} (a : α) : RepS (Pure.pure a : StM (σ × Dev) α) := fun s => Rep.done (Res.ok a, s)
theorem fail {α : Type} (e : Err) : RepS (StM.fail e : StM (σ × Dev) α) := fun s => Rep.done (Res.err e, s)
theorem die {α : Type} (p : Panic) : RepS (StM.die p : StM (σ × Dev) α) := fun s => Rep.done (Res.panic p, s)

theorem bind {α β : Type} {p : StM (σ × Dev) α} {f : α → StM (σ × Dev) β} (hp : RepS p) (hf : ∀ a, RepS (f a)) :
    RepS (p >>= f) := by
  intro s
  refine Rep.step (hp s) fun b => ?_
  obtain ⟨b, s'⟩ := b
  cases b with
  | ok a => exact ⟨_, fun d d' _ _ h => by rw [StM.bind_apply, h], hf a s'⟩
  | err e => exact ⟨_, fun d d' _ _ h => by rw [StM.bind_apply, h], Rep.done (Res.err e, s')⟩
  | panic e => exact ⟨_, fun d d' _ _ h => by rw [StM.bind_apply, h], Rep.done (Res.panic e, s')⟩
  | diverge => exact ⟨_, fun d d' _ _ h => by rw [StM.bind_apply, h], Rep.done (Res.diverge, s')⟩

theorem ite {α : Type} {c : Prop} [Decidable c] {p q : StM (σ × Dev) α} (hp : RepS p) (hq : RepS q) :
    RepS (if c then p else q) := by
  split
  · exact hp
  · exact hq

theorem onDev {α : Type} {p : StM Dev α} (hp : RepD p) : RepS (StM.onDev p : StM (σ × Dev) α) := by
  intro s
  refine Rep.step hp fun b => ⟨_, fun d d' _ _ h => ?_, Rep.done (b, s)⟩
  show ((p d).1, (s, (p d).2)) = _
  rw [h]

end RepS

/-! ### The requests -/

theorem Dev.ask_asks (e : Bool) (p n : Nat) : Asks Prod.mk (Dev.ask e p n) :=
  ⟨.ask e p n fun r => .done r, fun _ _ => rfl⟩

theorem Dev.ask_rep (p n : Nat) : RepD (Dev.ask true p n) := by
  refine ⟨Dev.ask_asks true p n, fun img _ => ?_⟩
  refine ⟨if n = 0 ∨ p + n ≤ img.length then .ok ((img.drop p).take n) else .err (.io .unexpectedEof),
    fun d hd => ?_⟩
  obtain ⟨d1, e1, g1, g2, g3⟩ := Dev.seekStart_ok p d hd.2
  obtain ⟨d2, e2, g4, g5⟩ := Dev.readExact_noFail n d1 g3
  refine ⟨d2, ⟨g4.trans (g1.trans hd.1), g5⟩, ?_⟩
  unfold Dev.ask
  rw [StM.bind_of_ok e1, if_pos rfl, e2, g1, g2, hd.1]

theorem DataRun.read_asks (r : DataRun) (buf : Bytes) : Asks mk4 (fun d => r.read buf d) := by
  unfold DataRun.read
  refine .ite (fun _ => .done (Res.ok 0, r, buf)) fun _ => ?_
  cases r.position with
  | none => exact .done (Res.ok _, _, _)
  | some p =>
    dsimp only
    refine .ite (fun _ => ?_) fun _ => .done (Res.panic _, r, buf)
    refine Asks.step (Dev.ask_asks false (p + r.streamPosition) (min buf.length r.remainingLen)) fun b => ?_
    refine ⟨_, fun d d' _ _ h => ?_, Asks.done (match b with
      | .ok b => (Res.ok b.length, { r with position := some p, streamPosition := r.streamPosition + b.length },
          overwrite buf 0 b)
      | .err e => (.err e, r, buf)
      | .panic e => (.panic e, r, buf)
      | .diverge => (.diverge, r, buf))⟩
    unfold Dev.ask at h
    rw [StM.bind_apply] at h
    generalize Dev.seekStart (p + r.streamPosition) d = q at h ⊢
    obtain ⟨x, d1⟩ := q
    cases x with
    | ok u =>
      dsimp only at h ⊢
      rw [if_neg (by decide)] at h
      rw [h]
      cases b <;> rfl
    | err e => injection h with h1 h2; subst h1 h2; rfl
    | panic e => injection h with h1 h2; subst h1 h2; rfl
    | diverge => injection h with h1 h2; subst h1 h2; rfl

theorem readDataRun_asks (s : StreamState) (buf : Bytes) (br : Nat) :
    Asks mk5 (fun d => s.readDataRun buf br d) := by
  unfold StreamState.readDataRun
  cases s.run with
  | none => exact .done (Res.ok false, s, buf, br)
  | some r =>
    dsimp only
    refine .ite (fun _ => .done (Res.ok false, s, buf, br)) fun _ => ?_
    refine .ite (fun _ => .done (Res.ok false, s, buf, br)) fun _ => ?_
    refine Asks.step (r.read_asks ((buf.drop br).take
      (br + min (buf.length - br) (s.dataSize - s.streamPosition) - br))) ?_
    rintro ⟨x, r', sl'⟩
    cases x with
    | ok n =>
      refine ⟨_, fun d d' _ _ h => by rw [h], ?_⟩
      dsimp only
      exact .ite (fun _ => .done (Res.ok false, _, _, _)) fun _ => .done (Res.ok true, _, _, _)
    | err e => exact ⟨_, fun d d' _ _ h => by rw [h], .done (Res.err e, _, _, _)⟩
    | panic e => exact ⟨_, fun d d' _ _ h => by rw [h], .done (Res.panic e, _, _, _)⟩
    | diverge => exact ⟨_, fun d d' _ _ h => by rw [h], .done (Res.diverge, _, _, _)⟩

theorem NonRes.readLoop_asks (fuel : Nat) (v : NonRes) (buf : Bytes) (br : Nat) :
    Asks mk4 (fun d => NonRes.readLoop fuel v buf br d) := by
  induction fuel generalizing v buf br with
  | zero => exact .done (Res.diverge, _, _)
  | succ fuel ih =>
    unfold NonRes.readLoop
    refine .ite (fun _ => ?_) fun _ => .done (Res.ok _, _, _)
    refine Asks.step (readDataRun_asks v.st buf br) ?_
    rintro ⟨x, st', buf', br'⟩
    cases x with
    | ok b =>
      cases b with
      | true =>
        refine ⟨_, fun d d' _ _ h => by rw [h], ?_⟩
        exact ih _ _ _
      | false =>
        refine ⟨_, fun d d' _ _ h => by rw [h], ?_⟩
        dsimp only
        generalize NonRes.nextDataRun { v with st := st' } = q
        obtain ⟨x, v'⟩ := q
        cases x with
        | ok b =>
          cases b with
          | true => exact ih _ _ _
          | false => exact .done (Res.ok _, _, _)
        | err e => exact .done (Res.err _, _, _)
        | panic e => exact .done (Res.panic _, _, _)
        | diverge => exact .done (Res.diverge, _, _)
    | err e => exact ⟨_, fun d d' _ _ h => by rw [h], .done (Res.err e, _, _)⟩
    | panic e => exact ⟨_, fun d d' _ _ h => by rw [h], .done (Res.panic e, _, _)⟩
    | diverge => exact ⟨_, fun d d' _ _ h => by rw [h], .done (Res.diverge, _, _)⟩

/-- A reader of values behaves like a program. -/
def RepRead {σ : Type} (read : ReadFn (σ × Dev)) : Prop := ∀ s buf, Rep mkR (fun d => read (s, d) buf)

theorem NonRes.read_rep (v : NonRes) (buf : Bytes) : Rep mk4 (fun d => v.read buf d) := by
  refine ⟨NonRes.readLoop_asks _ v buf 0, fun img hi => ?_⟩
  obtain ⟨o, ho⟩ := SettledOn.runLoop hi (get := NonRes.st) (put := fun st v => { v with st := st })
    (adv := fun v d => (v.nextDataRun.1, v.nextDataRun.2, d))
    (fun v => v.runs.data.length - v.runs.state.offset) (fun _ _ => rfl) (fun _ _ _ => rfl) (fun _ _ => rfl)
    (fun v => .done v.nextDataRun)
    (fun v d v' d' _ h => by
      injection h with h1 h2
      injection h2 with h2 h3
      exact NonRes.nextDataRun_dec (Prod.ext h1 h2)) v buf 0
  refine ⟨o, fun d hd => ?_⟩
  obtain ⟨d', h1, h2⟩ := ho (buf.length + v.data.length + v.runs.data.length + 2) (by omega) d hd
  exact ⟨d', h1, (NonRes.readLoop_eq _ _ _ _ _).trans h2⟩

theorem NonRes.readFn_rep : RepRead NonRes.readFn := by
  intro v buf
  refine Rep.step (NonRes.read_rep v buf) ?_
  rintro ⟨x, v', buf'⟩
  refine ⟨_, fun d d' _ _ h => ?_, .done (x, v', buf')⟩
  unfold NonRes.readFn
  dsimp only
  rw [h]

theorem readExactLoop_rep {σ : Type} {read : ReadFn (σ × Dev)} (hr : RepRead read) (fuel : Nat) (s : σ)
    (done buf : Bytes) : Rep mkR (fun d => readExactLoop read fuel (s, d) done buf) := by
  induction fuel generalizing s done buf with
  | zero => exact .done (Res.diverge, _, _)
  | succ fuel ih =>
    unfold readExactLoop
    refine .ite (fun _ => .done (Res.ok _, _, _)) fun _ => ?_
    refine Rep.step (hr s buf) ?_
    rintro ⟨x, s', buf'⟩
    cases x with
    | ok n =>
      refine ⟨_, fun d d' _ _ h => by rw [h], ?_⟩
      dsimp only
      refine .ite (fun _ => .done (Res.err _, _, _)) fun _ => ?_
      exact .ite (fun _ => ih _ _ _) fun _ => .done (Res.panic _, _, _)
    | err e =>
      refine ⟨_, fun d d' _ _ h => by rw [h], ?_⟩
      dsimp only
      exact .ite (fun _ => ih _ _ _) fun _ => .done (Res.err _, _, _)
    | panic e => exact ⟨_, fun d d' _ _ h => by rw [h], .done (Res.panic e, s', done ++ buf')⟩
    | diverge => exact ⟨_, fun d d' _ _ h => by rw [h], .done (Res.diverge, s', done ++ buf')⟩

theorem copyLoop_rep {σ : Type} {read : ReadFn (σ × Dev)} (hr : RepRead read) (fuel : Nat) (s : σ)
    (buf out : Bytes) : Rep mkR (fun d => copyLoop read fuel (s, d) buf out) := by
  induction fuel generalizing s buf out with
  | zero => exact .done (Res.diverge, _, _)
  | succ fuel ih =>
    unfold copyLoop
    refine Rep.step (hr s buf) ?_
    rintro ⟨x, s', buf'⟩
    cases x with
    | ok n =>
      refine ⟨_, fun d d' _ _ h => by rw [h], ?_⟩
      dsimp only
      refine .ite (fun _ => .done (Res.ok _, _, _)) fun _ => ?_
      exact .ite (fun _ => ih _ _ _) fun _ => .done (Res.panic _, _, _)
    | err e => exact ⟨_, fun d d' _ _ h => by rw [h], .done (Res.err e, s', out)⟩
    | panic e => exact ⟨_, fun d d' _ _ h => by rw [h], .done (Res.panic e, s', out)⟩
    | diverge => exact ⟨_, fun d d' _ _ h => by rw [h], .done (Res.diverge, s', out)⟩

/-- `read_exact` with the fuel of the model, which mentions the schedule of the device. -/
theorem readExactLoop_rep_fuel {σ : Type} {read : ReadFn (σ × Dev)} (hr : RepRead read) (hq : QuietRead read)
    (s : σ) (buf : Bytes) :
    Rep mkR (fun d => readExactLoop read (buf.length + d.sched.length + 1) (s, d) [] buf) := by
  refine (readExactLoop_rep hr (buf.length + 1) s [] buf).congr fun d hd => ?_
  have e : buf.length + d.sched.length + 1 = (buf.length + 1) + d.sched.length := by omega
  rw [e]
  exact readExactLoop_fuel hq _ _ _ _ _ _ hd (by omega)

theorem NonRes.readExactAttached_rep (n : Nat) : RepS (NonRes.readExactAttached n) := by
  intro v
  refine Rep.step (readExactLoop_rep_fuel NonRes.readFn_rep NonRes.readFn_quiet v (List.replicate n 0)) ?_
  rintro ⟨x, s', buf'⟩
  cases x with
  | ok u =>
    refine ⟨_, fun d d' _ _ h => ?_, .done (Res.ok buf', s')⟩
    unfold NonRes.readExactAttached NonRes.readExact
    dsimp only
    rw [h]
  | err e =>
    refine ⟨_, fun d d' _ _ h => ?_, .done (Res.err e.viaIo, s')⟩
    unfold NonRes.readExactAttached NonRes.readExact
    dsimp only
    rw [h]
  | panic e =>
    refine ⟨_, fun d d' _ _ h => ?_, .done (Res.panic e, s')⟩
    unfold NonRes.readExactAttached NonRes.readExact
    dsimp only
    rw [h]
  | diverge =>
    refine ⟨_, fun d d' _ _ h => ?_, .done (Res.diverge, s')⟩
    unfold NonRes.readExactAttached NonRes.readExact
    dsimp only
    rw [h]

/-! ### Files -/

theorem ask_bind {α : Type} (p n : Nat) (f : Bytes → StM Dev α) :
    (do Dev.seekStart p; let b ← Dev.readExact n; f b : StM Dev α) = (do let b ← Dev.ask true p n; f b) := by
  funext d
  rw [StM.bind_apply, StM.bind_apply]
  unfold Dev.ask
  rw [StM.bind_apply]
  generalize Dev.seekStart p d = q
  obtain ⟨x, d1⟩ := q
  cases x <;> rfl

theorem NFile.new_rep (n : Ntfs) (p i : Nat) : RepD (NFile.new n p i) := by
  unfold NFile.new
  rw [ask_bind]
  exact .bind (Dev.ask_rep _ _) fun _ => .lift _

theorem Ntfs.new_rep : RepD Ntfs.new := by
  unfold Ntfs.new
  rw [ask_bind]
  exact .bind (Dev.ask_rep _ _) fun _ => .lift _

theorem Ntfs.file_rep (n : Ntfs) (i : Nat) : RepD (n.file i) := by
  unfold Ntfs.file
  refine .bind (.lift _) fun o => ?_
  cases n.mftPosition with
  | none => exact .die _
  | some p =>
    refine .bind (NFile.new_rep _ _ _) fun mft => .bind (.lift _) fun a => .bind (.lift _) fun v => ?_
    generalize v.seek (.start o) = q
    obtain ⟨x, v'⟩ := q
    cases x with
    | ok x =>
      dsimp only
      cases v'.dataPosition with
      | none => exact .fail _
      | some p => exact NFile.new_rep _ _ _
    | err x => exact .fail _
    | panic x => exact .die _
    | diverge => exact .lift _

/-! ### Attribute lists -/

theorem ListEntry.new_rep {σ : Type} {re : Nat → StM (σ × Dev) Bytes} (h : ∀ n, RepS (re n))
    (p : Pos) : RepS (ListEntry.new re p) :=
  .bind (h _) fun _ => .bind (.lift _) fun _ => .bind (.lift _) fun _ => .bind (h _) fun _ => .pure _

theorem AttrList.nextNonResident_rep (v : NonRes) : Rep mk3 (fun d => AttrList.nextNonResident v d) := by
  unfold AttrList.nextNonResident
  refine .ite (fun _ => .done (Res.ok _, _)) fun _ => ?_
  refine Rep.step (ListEntry.new_rep NonRes.readExactAttached_rep v.dataPosition v) ?_
  rintro ⟨x, v'⟩
  cases x with
  | ok e =>
    refine ⟨_, fun d d' _ _ h => by rw [h], ?_⟩
    dsimp only
    generalize v.seek (.current e.length) = q
    obtain ⟨x, w⟩ := q
    cases x with
    | ok m => exact .done (Res.ok _, _)
    | err m => exact .done (Res.err _, _)
    | panic m => exact .done (Res.panic _, _)
    | diverge => exact .done (Res.diverge, _)
  | err e => exact ⟨_, fun d d' _ _ h => by rw [h], .done (Res.err e, v)⟩
  | panic e => exact ⟨_, fun d d' _ _ h => by rw [h], .done (Res.panic e, v)⟩
  | diverge => exact ⟨_, fun d d' _ _ h => by rw [h], .done (Res.diverge, v)⟩

theorem AttrList.next_rep : RepS AttrList.next := by
  intro l
  cases l with
  | resident s p =>
    refine (Rep.done ((AttrList.next (.resident s p, ⟨[], 0, []⟩)).1,
      (AttrList.next (.resident s p, ⟨[], 0, []⟩)).2.1)).congr fun d _ => ?_
    rfl
  | nonResident v =>
    refine Rep.step (AttrList.nextNonResident_rep v) ?_
    rintro ⟨x, v'⟩
    refine ⟨_, fun d d' _ _ h => ?_, .done (x, .nonResident v')⟩
    unfold AttrList.next
    dsimp only
    rw [h]

theorem ALVal.nextConnected_rep : RepS ALVal.nextConnected := by
  intro v
  unfold ALVal.nextConnected
  dsimp only
  cases v.connected with
  | none => exact .done (Res.ok none, v)
  | some l =>
    dsimp only
    refine Rep.step (AttrList.next_rep l) ?_
    rintro ⟨x, l'⟩
    cases x with
    | ok o =>
      cases o with
      | none => exact ⟨_, fun d d' _ _ h => by rw [h], .done (Res.ok none, { v with connected := some l' })⟩
      | some e =>
        refine ⟨_, fun d d' _ _ h => by rw [h], ?_⟩
        dsimp only
        refine .ite (fun _ => ?_) fun _ => .done (Res.ok none, _)
        cases e.ty with
        | ok t => exact .ite (fun _ => .done (Res.ok (some e), _)) fun _ => .done (Res.ok none, _)
        | err m => exact .done (Res.err _, _)
        | panic m => exact .done (Res.panic _, _)
        | diverge => exact .done (Res.diverge, _)
    | err e => exact ⟨_, fun d d' _ _ h => by rw [h], .done (Res.err e, { v with connected := some l' })⟩
    | panic e => exact ⟨_, fun d d' _ _ h => by rw [h], .done (Res.panic e, { v with connected := some l' })⟩
    | diverge => exact ⟨_, fun d d' _ _ h => by rw [h], .done (Res.diverge, { v with connected := some l' })⟩

theorem ALVal.openEntry_rep (n : Ntfs) (e : ListEntry) : RepD (ALVal.openEntry n e) := by
  unfold ALVal.openEntry
  refine .bind (Ntfs.file_rep _ _) fun f => .bind (.lift _) fun a => .bind (.lift _) fun b => ?_
  refine .ite (.fail _) (.bind (.lift _) fun x => ?_)
  obtain ⟨data, p⟩ := x
  dsimp only
  generalize (DataRuns.new n.clusterSize data p).next = q
  obtain ⟨x, runs⟩ := q
  cases x with
  | none => exact .pure _
  | some r => exact .bind (.lift _) fun _ => .pure _

theorem ALVal.nextAttribute_rep : RepS ALVal.nextAttribute := by
  unfold ALVal.nextAttribute
  refine .bind ALVal.nextConnected_rep fun o => ?_
  cases o with
  | none => exact .pure _
  | some e =>
    intro v
    dsimp only
    refine Rep.step (ALVal.openEntry_rep v.ntfs e) fun x => ?_
    cases x with
    | ok o =>
      cases o with
      | none => exact ⟨_, fun d d' _ _ h => by rw [h], .done (Res.ok false, v)⟩
      | some o =>
        refine ⟨_, fun d d' _ _ h => by rw [h], ?_⟩
        exact .done (Res.ok true, _)
    | err e => exact ⟨_, fun d d' _ _ h => by rw [h], .done (Res.err e, v)⟩
    | panic e => exact ⟨_, fun d d' _ _ h => by rw [h], .done (Res.panic e, v)⟩
    | diverge => exact ⟨_, fun d d' _ _ h => by rw [h], .done (Res.diverge, v)⟩

theorem ALVal.advance_rep (v : ALVal) : Rep mk3 (fun d => v.advance d) := by
  unfold ALVal.advance
  generalize v.nextDataRun = q
  obtain ⟨x, v'⟩ := q
  cases x with
  | ok b =>
    cases b with
    | true => exact .done (Res.ok true, v')
    | false => exact ALVal.nextAttribute_rep v'
  | err x => exact .done (Res.err x, v')
  | panic x => exact .done (Res.panic x, v')
  | diverge => exact .done (Res.diverge, v')

theorem ALVal.new_rep (n : Ntfs) (l : AttrList) (i : Nat) (t : AttrType) (size : Nat) :
    RepD (ALVal.new n l i t size) := by
  unfold ALVal.new
  dsimp only
  refine Rep.step (ALVal.nextAttribute_rep
    { ntfs := n, initial := l, connected := some l, inst := i, ty := t, dataSize := size,
      attrState := none, st := StreamState.new size }) ?_
  rintro ⟨x, v'⟩
  cases x with
  | ok b => exact ⟨_, fun d d' _ _ h => by rw [h], .done (Res.ok v')⟩
  | err e => exact ⟨_, fun d d' _ _ h => by rw [h], .done (Res.err e)⟩
  | panic e => exact ⟨_, fun d d' _ _ h => by rw [h], .done (Res.panic e)⟩
  | diverge => exact ⟨_, fun d d' _ _ h => by rw [h], .done Res.diverge⟩

theorem ALVal.readLoop_asks (fuel : Nat) (v : ALVal) (buf : Bytes) (br : Nat) :
    Asks mk4 (fun d => ALVal.readLoop fuel v buf br d) := by
  induction fuel generalizing v buf br with
  | zero => exact .done (Res.diverge, _, _)
  | succ fuel ih =>
    unfold ALVal.readLoop
    refine .ite (fun _ => ?_) fun _ => .done (Res.ok _, _, _)
    refine Asks.step (readDataRun_asks v.st buf br) ?_
    rintro ⟨x, st', buf', br'⟩
    cases x with
    | ok b =>
      cases b with
      | true =>
        refine ⟨_, fun d d' _ _ h => by rw [h], ?_⟩
        exact ih _ _ _
      | false =>
        refine ⟨_, fun d d' _ _ h => by rw [h], ?_⟩
        dsimp only
        refine Asks.step (ALVal.advance_rep { v with st := st' }).asks ?_
        rintro ⟨x, v'⟩
        cases x with
        | ok b =>
          cases b with
          | true =>
            refine ⟨_, fun d d' _ _ h => by rw [h], ?_⟩
            exact ih _ _ _
          | false => exact ⟨_, fun d d' _ _ h => by rw [h], .done (Res.ok br', v', buf')⟩
        | err e => exact ⟨_, fun d d' _ _ h => by rw [h], .done (Res.err e, v', buf')⟩
        | panic e => exact ⟨_, fun d d' _ _ h => by rw [h], .done (Res.panic e, v', buf')⟩
        | diverge => exact ⟨_, fun d d' _ _ h => by rw [h], .done (Res.diverge, v', buf')⟩
    | err e => exact ⟨_, fun d d' _ _ h => by rw [h], .done (Res.err e, { v with st := st' }, buf')⟩
    | panic e => exact ⟨_, fun d d' _ _ h => by rw [h], .done (Res.panic e, { v with st := st' }, buf')⟩
    | diverge => exact ⟨_, fun d d' _ _ h => by rw [h], .done (Res.diverge, { v with st := st' }, buf')⟩

theorem ALVal.advance_dec {img : Bytes} (hi : img.length < U64) {v v' : ALVal} {d d' : Dev} (hd : d.Ok img)
    (h : v.advance d = (.ok true, v', d')) : v'.left < v.left := by
  have hn := v.nextDataRun_dec
  unfold ALVal.advance at h
  generalize v.nextDataRun = q at h hn
  obtain ⟨x, v1⟩ := q
  dsimp only at hn
  cases x with
  | ok b =>
    cases b with
    | true => cases h; exact hn.2 rfl
    | false =>
      refine Nat.lt_of_lt_of_le (ALVal.nextAttribute_dec (fun e w d1 h1 => ?_) h) hn.1
      obtain ⟨b, hb⟩ := (ALVal.nextConnected_rep v1).settled img hi
      obtain ⟨d2, g1, g2⟩ := hb d hd
      have : ALVal.nextConnected (v1, d) = mk3 b d2 := g2
      rw [h1] at this
      injection this with _ this
      injection this with _ this
      rw [this]
      exact g1.2
  | err x => cases h
  | panic x => cases h
  | diverge => cases h

theorem ALVal.read_rep (v : ALVal) (buf : Bytes) : Rep mk4 (fun d => v.read buf d) := by
  refine ⟨ALVal.readLoop_asks _ v buf 0, fun img hi => ?_⟩
  obtain ⟨o, ho⟩ := SettledOn.runLoop hi (get := ALVal.st) (put := fun st v => { v with st := st })
    (adv := ALVal.advance) ALVal.left (fun _ _ => rfl) (fun _ _ _ => rfl) (fun _ _ => rfl)
    (fun v => (ALVal.advance_rep v).settled img hi)
    (fun v d v' d' hd h => ALVal.advance_dec hi hd h) v buf 0
  refine ⟨o, fun d hd => ?_⟩
  have := v.left_lt
  obtain ⟨d', h1, h2⟩ := ho (buf.length + v.runFuel + v.leftFuel) (by omega) d hd
  exact ⟨d', h1, (ALVal.readLoop_eq _ _ _ _ _).trans h2⟩

theorem ALVal.seekLoop_rep (fuel : Nat) (v : ALVal) (pos : SeekFrom) (left : Nat) :
    Rep mk3 (fun d => ALVal.seekLoop fuel v pos left d) := by
  induction fuel generalizing v left with
  | zero => exact .done (Res.diverge, _)
  | succ fuel ih =>
    unfold ALVal.seekLoop
    refine .ite (fun _ => ?_) fun _ => .done (Res.ok _, _)
    generalize v.st.seekDataRun pos left = q
    obtain ⟨x, st', left'⟩ := q
    cases x with
    | ok b =>
      cases b with
      | true => exact .done (Res.ok _, _)
      | false =>
        dsimp only
        refine Rep.step (ALVal.advance_rep { v with st := st' }) ?_
        rintro ⟨x, v'⟩
        cases x with
        | ok b =>
          cases b with
          | true =>
            refine ⟨_, fun d d' _ _ h => by rw [h], ?_⟩
            exact ih _ _
          | false =>
            exact ⟨_, fun d d' _ _ h => by rw [h], .done (Res.ok _, { v' with st := { v'.st with run := none } })⟩
        | err e => exact ⟨_, fun d d' _ _ h => by rw [h], .done (Res.err e, v')⟩
        | panic e => exact ⟨_, fun d d' _ _ h => by rw [h], .done (Res.panic e, v')⟩
        | diverge => exact ⟨_, fun d d' _ _ h => by rw [h], .done (Res.diverge, v')⟩
    | err x => exact .done (Res.err _, _)
    | panic x => exact .done (Res.panic _, _)
    | diverge => exact .done (Res.diverge, _)

theorem ALVal.rewind_rep (v : ALVal) : Rep mk3 (fun d => v.rewind d) := by
  unfold ALVal.rewind
  refine Rep.step (ALVal.nextAttribute_rep { v with connected := some v.initial, st := StreamState.new v.len }) ?_
  rintro ⟨x, v'⟩
  cases x with
  | ok b => exact ⟨_, fun d d' _ _ h => by rw [h], .done (Res.ok (), v')⟩
  | err e => exact ⟨_, fun d d' _ _ h => by rw [h], .done (Res.err e, v')⟩
  | panic e => exact ⟨_, fun d d' _ _ h => by rw [h], .done (Res.panic e, v')⟩
  | diverge => exact ⟨_, fun d d' _ _ h => by rw [h], .done (Res.diverge, v')⟩

theorem ALVal.seek_rep (v : ALVal) (pos : SeekFrom) : Rep mk3 (fun d => v.seek pos d) := by
  unfold ALVal.seek
  generalize v.st.optimizeSeek pos v.len = q
  cases q with
  | err x => exact .done (Res.err _, _)
  | panic x => exact .done (Res.panic _, _)
  | diverge => exact .done (Res.diverge, _)
  | ok s =>
    cases s with
    | end_ n => exact .done (Res.panic _, _)
    | start n =>
      dsimp only
      refine Rep.step (ALVal.rewind_rep v) ?_
      rintro ⟨x, v1⟩
      cases x with
      | ok u =>
        refine ⟨_, fun d d' _ _ h => by rw [h], ?_⟩
        dsimp only
        refine Rep.step (ALVal.seekLoop_rep v.runFuel v1 (.start n) n) ?_
        rintro ⟨x, v2⟩
        cases x with
        | ok u =>
          exact ⟨_, fun d d' _ _ h => by rw [h],
            .done (Res.ok n, { v2 with st := { v2.st with streamPosition := n } })⟩
        | err e => exact ⟨_, fun d d' _ _ h => by rw [h], .done (Res.err e, v2)⟩
        | panic e => exact ⟨_, fun d d' _ _ h => by rw [h], .done (Res.panic e, v2)⟩
        | diverge => exact ⟨_, fun d d' _ _ h => by rw [h], .done (Res.diverge, v2)⟩
      | err e => exact ⟨_, fun d d' _ _ h => by rw [h], .done (Res.err e, v1)⟩
      | panic e => exact ⟨_, fun d d' _ _ h => by rw [h], .done (Res.panic e, v1)⟩
      | diverge => exact ⟨_, fun d d' _ _ h => by rw [h], .done (Res.diverge, v1)⟩
    | current n =>
      dsimp only
      refine .ite (fun _ => ?_) fun _ => .done (Res.panic _, _)
      refine Rep.step (ALVal.seekLoop_rep v.runFuel v (.current n) n.toNat) ?_
      rintro ⟨x, v2⟩
      cases x with
      | ok u =>
        refine ⟨_, fun d d' _ _ h => by rw [h], ?_⟩
        dsimp only
        exact .ite (fun _ => .done (Res.ok _, _)) fun _ => .done (Res.panic _, _)
      | err e => exact ⟨_, fun d d' _ _ h => by rw [h], .done (Res.err e, v2)⟩
      | panic e => exact ⟨_, fun d d' _ _ h => by rw [h], .done (Res.panic e, v2)⟩
      | diverge => exact ⟨_, fun d d' _ _ h => by rw [h], .done (Res.diverge, v2)⟩

theorem Val.readFn_rep : RepRead Val.readFn := by
  intro v buf
  match v with
  | .simple (.res r) => exact .done ((r.read buf).1, Val.simple (.res (r.read buf).2.1), (r.read buf).2.2)
  | .simple (.nonRes v) =>
    refine Rep.step (NonRes.read_rep v buf) ?_
    rintro ⟨x, v', buf'⟩
    refine ⟨_, fun d d' _ _ h => ?_, .done (x, .simple (.nonRes v'), buf')⟩
    unfold Val.readFn Val.read SVal.read
    dsimp only
    rw [h]
  | .list v =>
    refine Rep.step (ALVal.read_rep v buf) ?_
    rintro ⟨x, v', buf'⟩
    refine ⟨_, fun d d' _ _ h => ?_, .done (x, .list v', buf')⟩
    unfold Val.readFn Val.read
    dsimp only
    rw [h]

theorem Val.read_rep (v : Val) (buf : Bytes) : Rep mk4 (fun d => v.read buf d) := by
  refine Rep.step (Val.readFn_rep v buf) ?_
  rintro ⟨x, v', buf'⟩
  refine ⟨_, fun d d' _ _ h => ?_, .done (x, v', buf')⟩
  unfold Val.readFn at h
  dsimp only at h
  generalize v.read buf d = q at h
  obtain ⟨a, b, c, e⟩ := q
  simp only [mkR, Prod.mk.injEq] at h
  obtain ⟨rfl, ⟨rfl, rfl⟩, rfl⟩ := h
  rfl

theorem Val.seek_rep (v : Val) (pos : SeekFrom) : Rep mk3 (fun d => v.seek pos d) := by
  cases v with
  | simple v => exact .done ((v.seek pos).1, Val.simple (v.seek pos).2)
  | list v =>
    refine Rep.step (ALVal.seek_rep v pos) ?_
    rintro ⟨x, v'⟩
    refine ⟨_, fun d d' _ _ h => ?_, .done (x, .list v')⟩
    unfold Val.seek
    dsimp only
    rw [h]

theorem Val.readExactAttached_rep (n : Nat) : RepS (Val.readExactAttached n) := by
  intro v
  refine Rep.step (readExactLoop_rep_fuel Val.readFn_rep Val.readFn_quiet v (List.replicate n 0)) ?_
  rintro ⟨x, s', buf'⟩
  cases x with
  | ok u =>
    refine ⟨_, fun d d' _ _ h => ?_, .done (Res.ok buf', s')⟩
    unfold Val.readExactAttached Val.readExact
    dsimp only
    rw [h]
  | err e =>
    refine ⟨_, fun d d' _ _ h => ?_, .done (Res.err e.viaIo, s')⟩
    unfold Val.readExactAttached Val.readExact
    dsimp only
    rw [h]
  | panic e =>
    refine ⟨_, fun d d' _ _ h => ?_, .done (Res.panic e, s')⟩
    unfold Val.readExactAttached Val.readExact
    dsimp only
    rw [h]
  | diverge =>
    refine ⟨_, fun d d' _ _ h => ?_, .done (Res.diverge, s')⟩
    unfold Val.readExactAttached Val.readExact
    dsimp only
    rw [h]

theorem Val.readInto_rep (v : Val) (n : Nat) : RepD (v.readInto n) := by
  refine Rep.step (readExactLoop_rep_fuel Val.readFn_rep Val.readFn_quiet v (List.replicate n 0)) ?_
  rintro ⟨x, s', buf'⟩
  cases x with
  | ok u =>
    refine ⟨_, fun d d' _ _ h => ?_, .done (Res.ok buf')⟩
    unfold Val.readInto Val.readExact
    rw [h]
  | err e =>
    refine ⟨_, fun d d' _ _ h => ?_, .done (Res.err e)⟩
    unfold Val.readInto Val.readExact
    rw [h]
  | panic e =>
    refine ⟨_, fun d d' _ _ h => ?_, .done (Res.panic e)⟩
    unfold Val.readInto Val.readExact
    rw [h]
  | diverge =>
    refine ⟨_, fun d d' _ _ h => ?_, .done Res.diverge⟩
    unfold Val.readInto Val.readExact
    rw [h]

theorem Attr.value_rep (a : Attr) : RepD a.value := by
  unfold Attr.value
  cases a.list with
  | none => exact .bind (.lift _) fun _ => .pure _
  | some l =>
    exact .bind (.lift _) fun _ => .bind (.lift _) fun _ => .bind (.lift _) fun _ =>
      .bind (ALVal.new_rep _ _ _ _ _) fun _ => .pure _

theorem Attr.attributeList_rep (a : Attr) : RepD a.attributeList :=
  .bind (.lift _) fun _ => .bind (Attr.value_rep a) fun _ => .lift _

/-! ### The flattened attributes -/

theorem Attrs.itemOf_rep (it : Attrs) (l : AttrList) (e : ListEntry) (t : AttrType) : RepD (it.itemOf l e t) :=
  .bind (Ntfs.file_rep _ _) fun _ => .bind (.lift _) fun _ => .bind (.lift _) fun _ =>
    .ite (.pure _) (.pure _)

theorem Attrs.nextInList_rep (fuel : Nat) (l : AttrList) : RepS (Attrs.nextInList fuel l) := by
  induction fuel generalizing l with
  | zero => exact fun s => .done (Res.diverge, s)
  | succ fuel ih =>
    intro it
    unfold Attrs.nextInList
    dsimp only
    refine Rep.step (AttrList.next_rep l) ?_
    rintro ⟨x, l'⟩
    cases x with
    | ok o =>
      cases o with
      | none =>
        refine ⟨_, fun d d' _ _ h => by rw [h], ?_⟩
        exact .done (Res.ok none, _)
      | some e =>
        refine ⟨_, fun d d' _ _ h => by rw [h], ?_⟩
        dsimp only
        cases e.ty with
        | ok t =>
          dsimp only
          refine .ite (fun _ => ih _ _) fun _ => .ite (fun _ => ih _ _) fun _ => ?_
          refine Rep.step (Attrs.itemOf_rep it l e t) fun x => ?_
          cases x with
          | ok item =>
            refine ⟨_, fun d d' _ _ h => by rw [h], ?_⟩
            exact .done (Res.ok _, _)
          | err e =>
            refine ⟨_, fun d d' _ _ h => by rw [h], ?_⟩
            exact .done (Res.err e, _)
          | panic e =>
            refine ⟨_, fun d d' _ _ h => by rw [h], ?_⟩
            exact .done (Res.panic e, _)
          | diverge =>
            refine ⟨_, fun d d' _ _ h => by rw [h], ?_⟩
            exact .done (Res.diverge, _)
        | err e => exact .done (Res.err e, _)
        | panic e => exact .done (Res.panic e, _)
        | diverge => exact .done (Res.diverge, _)
    | err e =>
      refine ⟨_, fun d d' _ _ h => by rw [h], ?_⟩
      exact .done (Res.err e, _)
    | panic e =>
      refine ⟨_, fun d d' _ _ h => by rw [h], ?_⟩
      exact .done (Res.panic e, _)
    | diverge =>
      refine ⟨_, fun d d' _ _ h => by rw [h], ?_⟩
      exact .done (Res.diverge, _)

theorem Attrs.nextFromList_rep : RepS Attrs.nextFromList := by
  intro it
  unfold Attrs.nextFromList
  dsimp only
  cases it.list with
  | none => exact .done (Res.ok none, it)
  | some l => exact Attrs.nextInList_rep _ _ it

theorem Attrs.nextLoop_rep (fuel : Nat) : RepS (Attrs.nextLoop fuel) := by
  induction fuel with
  | zero => exact fun s => .done (Res.diverge, s)
  | succ fuel ih =>
    unfold Attrs.nextLoop
    refine .bind Attrs.nextFromList_rep fun o => ?_
    cases o with
    | some item => exact .pure _
    | none =>
      intro it
      dsimp only
      generalize it.raw.next = q
      obtain ⟨x, raw'⟩ := q
      cases x with
      | none => exact .done (Res.ok none, _)
      | some x =>
        cases x with
        | ok a =>
          dsimp only
          cases a.ty with
          | ok t =>
            by_cases ht : t = .attributeList
            · subst ht
              dsimp only
              refine Rep.step (Attr.attributeList_rep a) fun x => ?_
              cases x with
              | ok l =>
                refine ⟨_, fun d d' _ _ h => by rw [h], ?_⟩
                exact ih _
              | err e =>
                refine ⟨_, fun d d' _ _ h => by rw [h], ?_⟩
                exact .done (Res.err e, _)
              | panic e =>
                refine ⟨_, fun d d' _ _ h => by rw [h], ?_⟩
                exact .done (Res.panic e, _)
              | diverge =>
                refine ⟨_, fun d d' _ _ h => by rw [h], ?_⟩
                exact .done (Res.diverge, _)
            · cases t <;> first | exact absurd rfl ht | exact .done (Res.ok _, _)
          | err e => exact .done (Res.ok _, _)
          | panic e => exact .done (Res.panic e, _)
          | diverge => exact .done (Res.diverge, _)
        | err e => exact .done (Res.err e, _)
        | panic e => exact .done (Res.panic e, _)
        | diverge => exact .done (Res.diverge, _)

theorem Attrs.next_rep : RepS Attrs.next := fun it => Attrs.nextLoop_rep _ it

theorem Attrs.search_rep {α : Type} {pick : AttrItem → Attr → StM Dev (Option α)}
    (hp : ∀ i a, RepD (pick i a)) (fuel : Nat) : RepS (Attrs.search pick fuel) := by
  induction fuel with
  | zero => exact fun s => .done (Res.diverge, s)
  | succ fuel ih =>
    unfold Attrs.search
    refine .bind Attrs.next_rep fun o => ?_
    cases o with
    | none => exact .pure _
    | some item =>
      refine .bind (.lift _) fun a => .bind (.onDev (hp _ _)) fun o => ?_
      cases o with
      | some x => exact .pure _
      | none => exact ih

theorem NFile.search_rep {α : Type} (f : NFile) {pick : AttrItem → Attr → StM Dev (Option α)}
    (hp : ∀ i a, RepD (pick i a)) (fuel : Nat) : RepD (f.search pick fuel) := by
  unfold NFile.search
  cases f.attributes with
  | ok it =>
    refine Rep.step (Attrs.search_rep hp fuel it) ?_
    rintro ⟨x, it'⟩
    refine ⟨_, fun d d' _ _ h => ?_, .done x⟩
    dsimp only
    rw [h]
  | err x => exact .done (Res.err x)
  | panic x => exact .done (Res.panic x)
  | diverge => exact .done Res.diverge

theorem NFile.dataItem_rep (f : NFile) (asked : List Nat) (fuel : Nat) : RepD (f.dataItem asked fuel) :=
  NFile.search_rep f (fun _ _ => .lift _) fuel

theorem NFile.findAttribute_rep (f : NFile) (ty : AttrType) (name : Option (List Nat)) (fuel : Nat) :
    RepD (f.findAttribute ty name fuel) := by
  unfold NFile.findAttribute
  refine .bind (NFile.search_rep f (fun _ _ => .lift _) fuel) fun o => ?_
  cases o with
  | some item => exact .pure _
  | none => exact .fail _

/-! ### Structured values -/

/-- A structured value that is decoded by reading only. -/
def Structured.RepReads {α : Type} (S : Structured α) : Prop :=
  ∀ re : Nat → StM (Val × Dev) Bytes, (∀ n, RepS (re n)) → ∀ p len, RepS (S.new re p len)

theorem StdInfo.repReads : StdInfo.structured.RepReads := by
  intro re h p len
  show RepS (StdInfo.new re p len)
  unfold StdInfo.new
  refine .ite (.fail _) (.bind (h _) fun _ => .bind (.lift _) fun _ => ?_)
  refine .ite ?_ ?_
  · exact .bind (h _) fun _ => .bind (.lift _) fun _ => .pure _
  · exact .pure _

theorem FileName.repReads : FileName.structured.RepReads := by
  intro re h p len
  show RepS (FileName.new re p len)
  unfold FileName.new
  exact .ite (.fail _) (.bind (h _) fun _ => .bind (.lift _) fun _ => .bind (.lift _) fun _ =>
    .bind (.lift _) fun _ => .bind (h _) fun _ => .pure _)

theorem VolumeInfo.repReads : VolumeInfo.structured.RepReads := by
  intro re h p len
  show RepS (VolumeInfo.new re p len)
  unfold VolumeInfo.new
  exact .ite (.fail _) (.bind (h _) fun _ => .lift _)

theorem VolumeName.repReads : VolumeName.structured.RepReads := by
  intro re h p len
  show RepS (VolumeName.new re p len)
  unfold VolumeName.new
  exact .ite (.fail _) (.bind (h _) fun _ => .pure _)

theorem ObjectId.repReads : ObjectId.structured.RepReads := by
  intro re h p len
  show RepS (ObjectId.new re p len)
  have hg : RepS (ObjectId.readGuid re) := .bind (h _) fun _ => .lift _
  have hi : ∀ c, RepS (ObjectId.readGuidIf re c) := fun c =>
    .ite (.bind hg fun _ => .pure _) (.pure _)
  unfold ObjectId.new
  exact .ite (.fail _) (.bind hg fun _ => .bind (hi _) fun _ => .bind (hi _) fun _ =>
    .bind (hi _) fun _ => .pure _)

theorem Attr.structuredValue_rep {α : Type} {S : Structured α} (hS : S.RepReads) (a : Attr) :
    RepD (a.structuredValue S) := by
  refine .bind (.lift _) fun _ => .bind (Attr.value_rep a) fun v => ?_
  refine Rep.step (hS _ Val.readExactAttached_rep v.dataPosition v.len v) ?_
  rintro ⟨x, v'⟩
  refine ⟨_, fun d d' _ _ h => ?_, .done x⟩
  show ((S.new Val.readExactAttached v.dataPosition v.len (v, d)).1,
    (S.new Val.readExactAttached v.dataPosition v.len (v, d)).2.2) = _
  rw [h]

theorem NFile.fileName_rep (f : NFile) (ns : Option Namespace) (parent : Option Nat) (fuel : Nat) :
    RepD (f.fileName ns parent fuel) := by
  refine NFile.search_rep f (fun _ a => ?_) fuel
  exact .bind (.lift _) fun _ => .ite (.pure _) (.bind (Attr.structuredValue_rep FileName.repReads a)
    fun _ => .bind (.lift _) fun _ => .ite (.pure _) (.pure _))

/-! ### The volume -/

theorem Ntfs.volumeInfo_rep (n : Ntfs) : RepD n.volumeInfo :=
  .bind (Ntfs.file_rep _ _) fun _ => .lift _

theorem Ntfs.volumeName_rep (n : Ntfs) : RepD n.volumeName := by
  refine .bind (Ntfs.file_rep _ _) fun f => ?_
  cases f.findResidentStructured VolumeName.structured none with
  | ok v => exact .pure _
  | err e => cases e <;> first | exact .pure _ | exact .fail _
  | panic p => exact .die _
  | diverge => exact .lift _

theorem Ntfs.readUpcaseTable_rep (n : Ntfs) (fuel : Nat) : RepD (n.readUpcaseTable fuel) := by
  refine .bind ?_ fun _ => .pure _
  refine .bind (Ntfs.file_rep _ _) fun f => .bind (NFile.dataItem_rep _ _ _) fun o => ?_
  cases o with
  | none => exact .fail _
  | some item =>
    exact .bind (.lift _) fun a => .bind (.lift _) fun len => .ite (.fail _)
      (.bind (Attr.value_rep a) fun v => .bind (Val.readInto_rep _ _) fun _ => .pure _)

/-! ### Indexes -/

theorem IndexAllocation.seekTo_rep (v : Val) (pos : SeekFrom) : RepD (IndexAllocation.seekTo v pos) := by
  refine Rep.step (Val.seek_rep v pos) ?_
  rintro ⟨x, v'⟩
  cases x with
  | ok u =>
    refine ⟨_, fun d d' _ _ h => ?_, .done (Res.ok v')⟩
    unfold IndexAllocation.seekTo
    rw [h]
  | err e =>
    refine ⟨_, fun d d' _ _ h => ?_, .done (Res.err e)⟩
    unfold IndexAllocation.seekTo
    rw [h]
  | panic e =>
    refine ⟨_, fun d d' _ _ h => ?_, .done (Res.panic e)⟩
    unfold IndexAllocation.seekTo
    rw [h]
  | diverge =>
    refine ⟨_, fun d d' _ _ h => ?_, .done Res.diverge⟩
    unfold IndexAllocation.seekTo
    rw [h]

theorem IndexRecord.new_rep (v : Val) (size : Nat) : RepD (IndexRecord.new v size) :=
  .bind (Val.readInto_rep _ _) fun _ => .lift _

theorem IndexAllocation.recordFromVcn_rep (a : IndexAllocation) (size : Nat) (vcn : Int) :
    RepD (a.recordFromVcn size vcn) :=
  .bind (.lift _) fun _ => .bind (IndexAllocation.seekTo_rep _ _) fun _ => .ite (.fail _)
    (.bind (IndexRecord.new_rep _ _) fun _ => .bind (.lift _) fun _ => .ite (.fail _) (.pure _))

theorem Index.subnode_rep (ix : Index) (vcn : Int) : RepD (ix.subnode vcn) :=
  .bind (.lift _) fun _ => .bind (.lift _) fun a =>
    .bind (.bind (.lift _) fun _ => .bind (Attr.value_rep a) fun _ => .lift _) fun _ =>
    .bind (IndexAllocation.recordFromVcn_rep _ _ _) fun _ => .lift _

theorem IndexRecords.next_rep : RepS IndexRecords.next := by
  intro it
  unfold IndexRecords.next
  dsimp only
  refine .ite (fun _ => .done (Res.ok none, it)) fun _ => ?_
  refine Rep.step (IndexRecord.new_rep it.allocation.value it.size) fun x => ?_
  cases x with
  | ok r =>
    refine ⟨_, fun d d' _ _ h => by rw [h], ?_⟩
    dsimp only
    refine Rep.step (Val.seek_rep it.allocation.value (.current it.size)) ?_
    rintro ⟨x, v'⟩
    cases x with
    | ok u =>
      refine ⟨_, fun d d' _ _ h => by rw [h], ?_⟩
      exact .done (Res.ok _, _)
    | err e =>
      refine ⟨_, fun d d' _ _ h => by rw [h], ?_⟩
      exact .done (Res.err e, _)
    | panic e =>
      refine ⟨_, fun d d' _ _ h => by rw [h], ?_⟩
      exact .done (Res.panic e, _)
    | diverge =>
      refine ⟨_, fun d d' _ _ h => by rw [h], ?_⟩
      exact .done (Res.diverge, _)
  | err e =>
    refine ⟨_, fun d d' _ _ h => by rw [h], ?_⟩
    exact .done (Res.err e, _)
  | panic e =>
    refine ⟨_, fun d d' _ _ h => by rw [h], ?_⟩
    exact .done (Res.panic e, _)
  | diverge =>
    refine ⟨_, fun d d' _ _ h => by rw [h], ?_⟩
    exact .done (Res.diverge, _)

theorem IndexEntries.loop_rep (ix : Index) (fuel : Nat) : RepS (IndexEntries.loop ix fuel) := by
  induction fuel with
  | zero => exact fun s => .done (Res.diverge, s)
  | succ fuel ih =>
    intro it
    unfold IndexEntries.loop
    dsimp only
    cases it.inner with
    | nil => exact .done (Res.ok none, it)
    | cons top below =>
      dsimp only
      generalize top.next = q
      obtain ⟨x, top'⟩ := q
      cases x with
      | ok o =>
        cases o with
        | some r =>
          dsimp only
          cases IndexEntries.inspect r top'.data with
          | ok p =>
            obtain ⟨last, o⟩ := p
            cases o with
            | some vcn =>
              dsimp only
              refine Rep.step (Index.subnode_rep ix vcn) fun x => ?_
              cases x with
              | ok sub =>
                refine ⟨_, fun d d' _ _ h => by rw [h], ?_⟩
                exact ih _
              | err e =>
                refine ⟨_, fun d d' _ _ h => by rw [h], ?_⟩
                exact .done (Res.err e, _)
              | panic e =>
                refine ⟨_, fun d d' _ _ h => by rw [h], ?_⟩
                exact .done (Res.panic e, _)
              | diverge =>
                refine ⟨_, fun d d' _ _ h => by rw [h], ?_⟩
                exact .done (Res.diverge, _)
            | none =>
              dsimp only
              cases last with
              | true => exact ih _
              | false => exact .done (Res.ok _, _)
          | err e => exact .done (Res.err e, _)
          | panic e => exact .done (Res.panic e, _)
          | diverge => exact .done (Res.diverge, _)
        | none =>
          dsimp only
          cases it.following with
          | nil => exact .done (Res.ok none, _)
          | cons o rest =>
            cases o with
            | some r => exact .done (Res.ok _, _)
            | none => exact ih _
      | err e => exact .done (Res.err e, _)
      | panic e => exact .done (Res.panic e, _)
      | diverge => exact .done (Res.diverge, _)

theorem IndexEntries.next_rep (ix : Index) (fuel : Nat) : RepS (IndexEntries.next ix fuel) := by
  intro it
  unfold IndexEntries.next
  refine Rep.step (IndexEntries.loop_rep ix fuel it) ?_
  rintro ⟨x, it'⟩
  cases x with
  | ok o =>
    cases o with
    | none =>
      refine ⟨_, fun d d' _ _ h => by rw [h], ?_⟩
      exact .done (Res.ok none, _)
    | some r =>
      refine ⟨_, fun d d' _ _ h => by rw [h], ?_⟩
      dsimp only
      cases IndexEntries.entryOf r it' with
      | ok e => exact .done (Res.ok _, _)
      | err e => exact .done (Res.err e, _)
      | panic e => exact .done (Res.panic e, _)
      | diverge => exact .done (Res.diverge, _)
  | err e =>
    refine ⟨_, fun d d' _ _ h => by rw [h], ?_⟩
    exact .done (Res.err e, _)
  | panic e =>
    refine ⟨_, fun d d' _ _ h => by rw [h], ?_⟩
    exact .done (Res.panic e, _)
  | diverge =>
    refine ⟨_, fun d d' _ _ h => by rw [h], ?_⟩
    exact .done (Res.diverge, _)

theorem Index.findLoop_rep {κ : Type} (key : Bytes → Pos → Res κ) (cmp : κ → Res Ordering) (ix : Index)
    (fuel : Nat) (it : NodeRanges) : RepD (Index.findLoop key cmp ix fuel it) := by
  induction fuel generalizing it with
  | zero => exact .lift _
  | succ fuel ih =>
    unfold RepD
    unfold Index.findLoop
    generalize it.next = q
    obtain ⟨x, it'⟩ := q
    cases x with
    | ok o =>
      cases o with
      | none => exact .done (Res.ok none)
      | some r =>
        dsimp only
        cases r.toEntry it'.data with
        | ok e =>
          dsimp only
          cases Index.judge key cmp e with
          | ok o =>
            cases o with
            | some b =>
              cases b with
              | true => exact .done (Res.ok _)
              | false => exact ih _
            | none =>
              dsimp only
              cases e.subnodeVcn with
              | ok o =>
                cases o with
                | none => exact .done (Res.ok none)
                | some vcn =>
                  dsimp only
                  refine Rep.step (Index.subnode_rep ix vcn) fun x => ?_
                  cases x with
                  | ok sub =>
                    refine ⟨_, fun d d' _ _ h => by rw [h], ?_⟩
                    exact ih _
                  | err e => exact ⟨_, fun d d' _ _ h => by rw [h], .done (Res.err e)⟩
                  | panic e => exact ⟨_, fun d d' _ _ h => by rw [h], .done (Res.panic e)⟩
                  | diverge => exact ⟨_, fun d d' _ _ h => by rw [h], .done Res.diverge⟩
              | err e => exact .done (Res.err e)
              | panic e => exact .done (Res.panic e)
              | diverge => exact .done Res.diverge
          | err e => exact .done (Res.err e)
          | panic e => exact .done (Res.panic e)
          | diverge => exact .done Res.diverge
        | err e => exact .done (Res.err e)
        | panic e => exact .done (Res.panic e)
        | diverge => exact .done Res.diverge
    | err e => exact .done (Res.err e)
    | panic e => exact .done (Res.panic e)
    | diverge => exact .done Res.diverge

theorem NFile.directoryIndex_rep (f : NFile) (fuel : Nat) : RepD (f.directoryIndex fuel) := by
  refine .bind (.lift _) fun _ => .ite (.fail _) (.bind (NFile.findAttribute_rep _ _ _ _) fun _ =>
    .bind (.lift _) fun _ => .bind (.lift _) fun root => .bind ?_ fun _ => .lift _)
  exact .bind (.lift _) fun _ => .ite (.bind (NFile.findAttribute_rep _ _ _ _) fun _ => .pure _)
    (.pure _)

/-! ### The shell -/

theorem Shell.start_rep (fuel : Nat) : RepD (Shell.start fuel) :=
  .bind Ntfs.new_rep fun _ => .bind (Ntfs.readUpcaseTable_rep _ _) fun _ =>
    .bind (Ntfs.file_rep _ _) fun _ => .pure _

theorem bestFileName_rep (f : NFile) (parent fuel : Nat) : RepD (bestFileName f parent fuel) := by
  have hl : ∀ ns, RepD (bestLoop f parent fuel ns) := by
    intro ns
    induction ns with
    | nil => exact .pure _
    | cons n ns ih =>
      refine .bind (NFile.fileName_rep _ _ _ _) fun o => ?_
      cases o with
      | some n => exact .pure _
      | none => exact ih
  refine .bind (hl _) fun o => ?_
  cases o <;> exact .pure _

theorem Index.findName_rep (ix : Index) (n : Ntfs) (name : List Nat) (fuel : Nat) :
    RepD (ix.findName n name fuel) :=
  Index.findLoop_rep _ _ _ _ _

theorem IEntry.toFile_rep (e : IEntry) (n : Ntfs) : RepD (e.toFile n) :=
  .bind (.lift _) fun _ => Ntfs.file_rep _ _

theorem Shell.parseFileArg_rep (s : Shell) (arg : List Char) (fuel : Nat) : RepD (s.parseFileArg arg fuel) := by
  unfold Shell.parseFileArg
  refine .ite (.pure _) ?_
  cases stripPrefix ['/'] arg with
  | some number =>
    dsimp only
    cases parseRecordNumber number with
    | some n => exact .bind (Ntfs.file_rep _ _) fun _ => .pure _
    | none => exact .pure _
  | none =>
    refine .bind (.lift _) fun _ => .bind (NFile.directoryIndex_rep _ _) fun _ =>
      .bind (Index.findName_rep _ _ _ _) fun o => ?_
    cases o with
    | some e => exact .bind (IEntry.toFile_rep _ _) fun _ => .pure _
    | none => exact .pure _

theorem Shell.cd_rep (s : Shell) (arg : List Char) (fuel : Nat) : RepD (s.cd arg fuel) := by
  refine .ite (.pure _) (.ite (.ite (.pure _) (.pure _)) ?_)
  refine .bind (.lift _) fun _ => .bind (NFile.directoryIndex_rep _ _) fun _ =>
    .bind (Index.findName_rep _ _ _ _) fun o => ?_
  cases o with
  | none => exact .pure _
  | some e =>
    refine .bind (.lift _) fun _ => .ite (.pure _) (.bind (IEntry.toFile_rep _ _) fun _ =>
      .bind (bestFileName_rep _ _ _) fun o => ?_)
    cases o <;> exact .pure _

theorem Shell.openData_rep (s : Shell) (file stream : List Char) (fuel : Nat) :
    RepD (s.openData file stream fuel) := by
  refine .bind (Shell.parseFileArg_rep _ _ _) fun o => ?_
  cases o with
  | error m => exact .pure _
  | ok f =>
    refine .bind (NFile.dataItem_rep _ _ _) fun o => ?_
    cases o with
    | none => exact .pure _
    | some item => exact .bind (.lift _) fun _ => .bind (Attr.value_rep _) fun _ => .pure _

theorem dirLoop_rep (ix : Index) (fuel n : Nat) (out : List (Bool × Bytes)) (it : IndexEntries) :
    Rep mk3 (fun d => dirLoop ix fuel n out (it, d)) := by
  induction n generalizing out it with
  | zero => exact .done (Res.diverge, out)
  | succ n ih =>
    unfold dirLoop
    refine Rep.step (IndexEntries.next_rep ix fuel it) ?_
    rintro ⟨x, it'⟩
    cases x with
    | ok o =>
      cases o with
      | none => exact ⟨_, fun d d' _ _ h => by rw [h], .done (Res.ok (), out)⟩
      | some e =>
        refine ⟨_, fun d d' _ _ h => by rw [h], ?_⟩
        dsimp only
        cases e.fileNameKey with
        | ok k => exact ih _ _
        | err e => exact .done (Res.err e, _)
        | panic e => exact .done (Res.panic e, _)
        | diverge => exact .done (Res.diverge, _)
    | err e => exact ⟨_, fun d d' _ _ h => by rw [h], .done (Res.err e, out)⟩
    | panic e => exact ⟨_, fun d d' _ _ h => by rw [h], .done (Res.panic e, out)⟩
    | diverge => exact ⟨_, fun d d' _ _ h => by rw [h], .done (Res.diverge, out)⟩

theorem Shell.dir_rep (s : Shell) (fuel : Nat) : Rep mk3 (fun d => s.dir fuel d) := by
  unfold Shell.dir
  refine Rep.step (show RepD (do let f ← StM.lift s.last; f.directoryIndex fuel) from
    .bind (.lift _) fun f => f.directoryIndex_rep fuel) fun x => ?_
  cases x with
  | ok ix =>
    refine ⟨_, fun d d' _ _ h => by rw [h], ?_⟩
    exact dirLoop_rep ix fuel fuel [] _
  | err e => exact ⟨_, fun d d' _ _ h => by rw [h], .done (Res.err e, [])⟩
  | panic e => exact ⟨_, fun d d' _ _ h => by rw [h], .done (Res.panic e, [])⟩
  | diverge => exact ⟨_, fun d d' _ _ h => by rw [h], .done (Res.diverge, [])⟩

theorem Shell.getShown_rep (s : Shell) (arg : List Char) (exists' : List Char → Bool) (fuel : Nat) :
    Rep mk4 (fun d => s.getShown arg exists' fuel d) := by
  unfold Shell.getShown
  dsimp only
  refine .ite (fun _ => .done (Res.ok _, none, none)) fun _ => ?_
  refine Rep.step (Shell.openData_rep s (splitStream arg).1 (splitStream arg).2 fuel) fun x => ?_
  cases x with
  | ok o =>
    cases o with
    | error m =>
      exact ⟨_, fun d d' _ _ h => by rw [h],
        .done (Res.ok (Except.error m), none, some (outputName (splitStream arg).1 (splitStream arg).2, []))⟩
    | ok v =>
      refine ⟨_, fun d d' _ _ h => by rw [h], ?_⟩
      dsimp only
      refine Rep.step (copyLoop_rep Val.readFn_rep fuel v (List.replicate 4096 0) []) ?_
      rintro ⟨x, v', b⟩
      cases x with
      | ok u =>
        exact ⟨_, fun d d' _ _ h => by rw [h],
          .done (Res.ok (Except.ok v.len), some v.len, some (outputName (splitStream arg).1 (splitStream arg).2, b))⟩
      | err e =>
        exact ⟨_, fun d d' _ _ h => by rw [h],
          .done (Res.err e, some v.len, some (outputName (splitStream arg).1 (splitStream arg).2, b))⟩
      | panic e =>
        exact ⟨_, fun d d' _ _ h => by rw [h],
          .done (Res.panic e, some v.len, some (outputName (splitStream arg).1 (splitStream arg).2, b))⟩
      | diverge =>
        exact ⟨_, fun d d' _ _ h => by rw [h],
          .done (Res.diverge, some v.len, some (outputName (splitStream arg).1 (splitStream arg).2, b))⟩
  | err e =>
    exact ⟨_, fun d d' _ _ h => by rw [h],
      .done (Res.err e, none, some (outputName (splitStream arg).1 (splitStream arg).2, []))⟩
  | panic e =>
    exact ⟨_, fun d d' _ _ h => by rw [h],
      .done (Res.panic e, none, some (outputName (splitStream arg).1 (splitStream arg).2, []))⟩
  | diverge =>
    exact ⟨_, fun d d' _ _ h => by rw [h],
      .done (Res.diverge, none, some (outputName (splitStream arg).1 (splitStream arg).2, []))⟩

theorem Shell.get_rep (s : Shell) (arg : List Char) (exists' : List Char → Bool) (fuel : Nat) :
    Rep mk3 (fun d => s.get arg exists' fuel d) := by
  unfold Shell.get
  refine Rep.step (s.getShown_rep arg exists' fuel) ?_
  rintro ⟨x, n, f⟩
  exact ⟨_, fun d d' _ _ h => by rw [h], .done (x, f)⟩

end NT
