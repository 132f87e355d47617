import Verif.Spec.Local
import Verif.Lemmas.Prog

/-! Operations depend only on the bytes of the structures they work on: the calculus, and the reading of values. -/

namespace NT

open Spec

/-- On devices over `img` and devices that are the same on `S`, `f` has the same result, and the result has `I`.
`mk` says how the result of `f` is made of the result proper and the device. -/
def On {β γ : Type} (img : Bytes) (S : Nat → Prop) (mk : β → Dev → γ) (I : β → Prop) (f : Dev → γ) : Prop :=
  ∀ d e, d.img = img → SameOn S d e →
    ∃ b d' e', f d = mk b d' ∧ f e = mk b e' ∧ d'.img = img ∧ SameOn S d' e' ∧ I b

namespace On

variable {β γ β' γ' : Type} {img : Bytes} {S : Nat → Prop} {mk : β → Dev → γ} {mk' : β' → Dev → γ'}
  {I : β → Prop} {I' : β' → Prop}

theorem done (b : β) (h : I b) : On img S mk I (mk b) := fun d e h1 h2 => ⟨b, d, e, rfl, rfl, h1, h2, h⟩

theorem weaken {J : β → Prop} {f : Dev → γ} (hf : On img S mk I f) (h : ∀ b, I b → J b) : On img S mk J f := by
  intro d e h1 h2
  obtain ⟨b, d', e', g1, g2, g3, g4, g5⟩ := hf d e h1 h2
  exact ⟨b, d', e', g1, g2, g3, g4, h b g5⟩

/-- First `f`, then something that depends only on the result of `f`. -/
theorem step {f : Dev → γ} {F : Dev → γ'} (hf : On img S mk I f)
    (h : ∀ b, I b → (∃ d d', d.img = img ∧ f d = mk b d') →
      ∃ G, (∀ d d', f d = mk b d' → F d = G d') ∧ On img S mk' I' G) : On img S mk' I' F := by
  intro d e h1 h2
  obtain ⟨b, d', e', g1, g2, g3, g4, g5⟩ := hf d e h1 h2
  obtain ⟨G, hG, hO⟩ := h b g5 ⟨d, d', h1, g1⟩
  rw [hG d d' g1, hG e e' g2]
  exact hO d' e' g3 g4

theorem ite {c : Prop} [Decidable c] {f g : Dev → γ} (hf : c → On img S mk I f) (hg : ¬ c → On img S mk I g) :
    On img S mk I (fun d => if c then f d else g d) := by
  by_cases hc : c
  · simpa only [if_pos hc] using hf hc
  · simpa only [if_neg hc] using hg hc

/-- The number of calls that are scheduled is the same on both devices. -/
theorem sched {f : Nat → Dev → γ} (h : ∀ k, On img S mk I (f k)) : On img S mk I (fun d => f d.sched.length d) := by
  intro d e h1 h2
  dsimp only
  rw [← h2.sched]
  exact h _ d e h1 h2

end On

/-- The result, if there is one, has `I`. -/
def IfOk {α : Type} (I : α → Prop) (r : Res α) : Prop := ∀ a, r = .ok a → I a

/-- A device operation that depends only on `S`. -/
def OnD {α : Type} (img : Bytes) (S : Nat → Prop) (I : α → Prop) (p : StM Dev α) : Prop :=
  On img S Prod.mk (IfOk I) p

/-- An operation on a state and a device that depends only on `S` from all states with `J`. -/
def OnS {σ α : Type} (img : Bytes) (S : Nat → Prop) (J : σ → Prop) (I : α → Prop) (p : StM (σ × Dev) α) : Prop :=
  ∀ s, J s → On img S mk3 (fun b => J b.2 ∧ IfOk I b.1) (fun d => p (s, d))

namespace OnD

variable {α β : Type} {img : Bytes} {S : Nat → Prop} {I : α → Prop} {J : β → Prop}

theorem lift {x : Res α} (h : IfOk I x) : OnD img S I (StM.lift x : StM Dev α) := On.done x h
theorem pure {a : α} (h : I a) : OnD img S I (Pure.pure a : StM Dev α) :=
  On.done (Res.ok a) fun _ e => by cases e; exact h
theorem fail (e : Err) : OnD img S I (StM.fail e : StM Dev α) := On.done (Res.err e) fun _ e => nomatch e
theorem die (p : Panic) : OnD img S I (StM.die p : StM Dev α) := On.done (Res.panic p) fun _ e => nomatch e

theorem weaken {K : α → Prop} {p : StM Dev α} (hp : OnD img S I p) (h : ∀ a, I a → K a) : OnD img S K p :=
  On.weaken hp fun _ g a e => h a (g a e)

theorem bind' {p : StM Dev α} {f : α → StM Dev β} (hp : OnD img S I p)
    (hf : ∀ a, I a → (∃ d d', d.img = img ∧ p d = (.ok a, d')) → OnD img S J (f a)) : OnD img S J (p >>= f) := by
  refine On.step hp fun x hx hw => ?_
  cases x with
  | ok a =>
    exact ⟨f a, fun d d' h => by rw [StM.bind_apply, h], hf a (hx a rfl) hw⟩
  | err e => exact ⟨_, fun d d' h => by rw [StM.bind_apply, h], On.done (Res.err e) fun _ e => nomatch e⟩
  | panic e => exact ⟨_, fun d d' h => by rw [StM.bind_apply, h], On.done (Res.panic e) fun _ e => nomatch e⟩
  | diverge => exact ⟨_, fun d d' h => by rw [StM.bind_apply, h], On.done Res.diverge fun _ e => nomatch e⟩

theorem bind {p : StM Dev α} {f : α → StM Dev β} (hp : OnD img S I p) (hf : ∀ a, I a → OnD img S J (f a)) :
    OnD img S J (p >>= f) := bind' hp fun a h _ => hf a h

theorem bindL {x : Res α} {f : α → StM Dev β} (hf : ∀ a, x = .ok a → OnD img S J (f a)) :
    OnD img S J ((StM.lift x : StM Dev α) >>= f) :=
  bind (I := fun a => x = .ok a) (lift fun _ h => h) hf

theorem ite {c : Prop} [Decidable c] {p q : StM Dev α} (hp : c → OnD img S I p) (hq : ¬ c → OnD img S I q) :
    OnD img S I (if c then p else q) := by
  by_cases h : c
  · rw [if_pos h]; exact hp h
  · rw [if_neg h]; exact hq h

end OnD

namespace OnS

variable {σ α β : Type} {img : Bytes} {S : Nat → Prop} {K : σ → Prop} {I : α → Prop} {J : β → Prop}

theorem lift {x : Res α} (h : IfOk I x) : OnS img S K I (StM.lift x : StM (σ × Dev) α) :=
  fun s hs => On.done (x, s) ⟨hs, h⟩
theorem pure {a : α} (h : I a) : OnS img S K I (Pure.pure a : StM (σ × Dev) α) :=
  fun s hs => On.done (Res.ok a, s) ⟨hs, fun _ e => by cases e; exact h⟩
theorem fail (e : Err) : OnS img S K I (StM.fail e : StM (σ × Dev) α) :=
  fun s hs => On.done (Res.err e, s) ⟨hs, fun _ e => nomatch e⟩

theorem weaken {L : α → Prop} {p : StM (σ × Dev) α} (hp : OnS img S K I p) (h : ∀ a, I a → L a) :
    OnS img S K L p := fun s hs => (hp s hs).weaken fun _ g => ⟨g.1, fun a e => h a (g.2 a e)⟩

theorem bind {p : StM (σ × Dev) α} {f : α → StM (σ × Dev) β} (hp : OnS img S K I p)
    (hf : ∀ a, I a → OnS img S K J (f a)) : OnS img S K J (p >>= f) := by
  intro s hs
  refine On.step (hp s hs) ?_
  rintro ⟨x, s'⟩ ⟨hs', hx⟩ _
  cases x with
  | ok a => exact ⟨fun d => f a (s', d), fun d d' h => by rw [StM.bind_apply, h], hf a (hx a rfl) s' hs'⟩
  | err e =>
    exact ⟨_, fun d d' h => by rw [StM.bind_apply, h], On.done (Res.err e, s') ⟨hs', fun _ e => nomatch e⟩⟩
  | panic e =>
    exact ⟨_, fun d d' h => by rw [StM.bind_apply, h], On.done (Res.panic e, s') ⟨hs', fun _ e => nomatch e⟩⟩
  | diverge =>
    exact ⟨_, fun d d' h => by rw [StM.bind_apply, h], On.done (Res.diverge, s') ⟨hs', fun _ e => nomatch e⟩⟩

theorem bindL {x : Res α} {f : α → StM (σ × Dev) β} (hf : ∀ a, x = .ok a → OnS img S K J (f a)) :
    OnS img S K J ((StM.lift x : StM (σ × Dev) α) >>= f) :=
  bind (I := fun a => x = .ok a) (lift fun _ h => h) hf

theorem ite {c : Prop} [Decidable c] {p q : StM (σ × Dev) α} (hp : c → OnS img S K I p)
    (hq : ¬ c → OnS img S K I q) : OnS img S K I (if c then p else q) := by
  by_cases h : c
  · rw [if_pos h]; exact hp h
  · rw [if_neg h]; exact hq h

theorem onDev {p : StM Dev α} (hp : OnD img S I p) : OnS img S K I (StM.onDev p : StM (σ × Dev) α) := by
  intro s hs
  refine On.step hp fun x hx _ => ?_
  refine ⟨_, fun d d' h => ?_, On.done (x, s) ⟨hs, hx⟩⟩
  unfold StM.onDev
  dsimp only
  rw [h]

end OnS

/-! ### The device -/

theorem Spec.SameOn.take {S : Nat → Prop} {d e : Dev} (h : SameOn S d e) {p n : Nat} (hs : Span S p n) :
    (d.img.drop p).take n = (e.img.drop p).take n := by
  apply List.ext_getElem?
  intro i
  simp only [List.getElem?_take, List.getElem?_drop]
  split
  · exact h.bytes _ (hs _ ‹_›)
  · rfl

theorem Dev.seekStart_on {img : Bytes} {S : Nat → Prop} (p : Nat) :
    ∀ d e, d.img = img → SameOn S d e → ∃ b d' e', Dev.seekStart p d = (b, d') ∧ Dev.seekStart p e = (b, e') ∧
      d'.img = img ∧ SameOn S d' e' ∧ ∀ u, b = .ok u → d'.pos = p := by
  intro d e h1 h2
  unfold Dev.seekStart
  rw [← h2.sched]
  cases hs : d.sched with
  | nil => exact ⟨_, _, _, rfl, rfl, h1, ⟨rfl, rfl, h2.bytes⟩, fun _ _ => rfl⟩
  | cons r s =>
    cases r with
    | chunk k => exact ⟨_, _, _, rfl, rfl, h1, ⟨rfl, rfl, h2.bytes⟩, fun _ _ => rfl⟩
    | fail x => exact ⟨_, _, _, rfl, rfl, h1, ⟨h2.pos, rfl, h2.bytes⟩, fun _ h => nomatch h⟩

theorem Dev.read_on {img : Bytes} {S : Nat → Prop} (n : Nat) :
    ∀ d e, d.img = img → SameOn S d e → Span S d.pos n → ∃ b d' e', Dev.read n d = (b, d') ∧
      Dev.read n e = (b, e') ∧ d'.img = img ∧ SameOn S d' e' ∧
      (∀ u, b = .ok u → d'.pos = d.pos + u.length ∧ u.length ≤ n) ∧ (∀ x, b = .err x → d'.pos = d.pos) := by
  intro d e h1 h2 h3
  unfold Dev.read
  rw [← h2.sched, ← h2.pos]
  cases hs : d.sched with
  | nil =>
    dsimp only
    rw [← h2.take h3]
    refine ⟨_, _, _, rfl, rfl, h1, ⟨rfl, rfl, h2.bytes⟩, fun u hu => ?_, fun _ h => nomatch h⟩
    cases hu
    exact ⟨rfl, by simp; omega⟩
  | cons r s =>
    cases r with
    | chunk k =>
      dsimp only
      rw [← h2.take (n := min n (k + 1)) fun i hi => h3 i (by omega)]
      refine ⟨_, _, _, rfl, rfl, h1, ⟨rfl, rfl, h2.bytes⟩, fun u hu => ?_, fun _ h => nomatch h⟩
      cases hu
      exact ⟨rfl, by simp; omega⟩
    | fail x =>
      exact ⟨_, _, _, rfl, rfl, h1, ⟨rfl, rfl, h2.bytes⟩, (fun _ h => nomatch h), fun _ _ => rfl⟩

theorem Dev.readExactAux_on {img : Bytes} {S : Nat → Prop} (fuel n : Nat) (acc : Bytes) :
    ∀ d e, d.img = img → SameOn S d e → Span S d.pos n → ∃ b d' e', Dev.readExactAux fuel n acc d = (b, d') ∧
      Dev.readExactAux fuel n acc e = (b, e') ∧ d'.img = img ∧ SameOn S d' e' := by
  induction fuel generalizing n acc with
  | zero => exact fun d e h1 h2 _ => ⟨_, _, _, rfl, rfl, h1, h2⟩
  | succ fuel ih =>
    intro d e h1 h2 h3
    unfold Dev.readExactAux
    by_cases hn : n = 0
    · rw [if_pos hn, if_pos hn]
      exact ⟨_, _, _, rfl, rfl, h1, h2⟩
    · rw [if_neg hn, if_neg hn]
      obtain ⟨b, d', e', g1, g2, g3, g4, g5, g6⟩ := Dev.read_on n d e h1 h2 h3
      rw [g1, g2]
      cases b with
      | ok u =>
        dsimp only
        by_cases hu : u.length = 0
        · rw [if_pos hu, if_pos hu]
          exact ⟨_, _, _, rfl, rfl, g3, g4⟩
        · rw [if_neg hu, if_neg hu]
          obtain ⟨k1, k2⟩ := g5 u rfl
          refine ih _ _ d' e' g3 g4 fun i hi => ?_
          rw [k1, Nat.add_assoc]
          exact h3 _ (by omega)
      | err x =>
        have k := g6 x rfl
        cases x with
        | io y =>
          cases y with
          | interrupted =>
            refine ih _ _ d' e' g3 g4 fun i hi => ?_
            rw [k]
            exact h3 _ hi
          | _ => exact ⟨_, _, _, rfl, rfl, g3, g4⟩
        | _ => exact ⟨_, _, _, rfl, rfl, g3, g4⟩
      | panic x => exact ⟨_, _, _, rfl, rfl, g3, g4⟩
      | diverge => exact ⟨_, _, _, rfl, rfl, g3, g4⟩

/-- A request depends only on the places that are asked for. -/
theorem Dev.ask_on {img : Bytes} {S : Nat → Prop} (ex : Bool) {p n : Nat} (hs : Span S p n) :
    On img S Prod.mk (fun _ => True) (Dev.ask ex p n) := by
  intro d e h1 h2
  obtain ⟨b, d1, e1, g1, g2, g3, g4, g5⟩ := Dev.seekStart_on p d e h1 h2
  unfold Dev.ask
  rw [StM.bind_apply, StM.bind_apply, g1, g2]
  cases b with
  | ok u =>
    have hp := g5 u rfl
    dsimp only
    cases ex with
    | false =>
      rw [if_neg (by decide)]
      obtain ⟨b, d', e', k1, k2, k3, k4, _⟩ := Dev.read_on n d1 e1 g3 g4 (hp ▸ hs)
      exact ⟨b, d', e', k1, k2, k3, k4, trivial⟩
    | true =>
      rw [if_pos rfl]
      unfold Dev.readExact
      rw [← g4.sched]
      obtain ⟨b, d', e', k1, k2, k3, k4⟩ := Dev.readExactAux_on (n + d1.sched.length + 1) n [] d1 e1 g3 g4 (hp ▸ hs)
      exact ⟨b, d', e', k1, k2, k3, k4, trivial⟩
  | err x => exact ⟨_, _, _, rfl, rfl, g3, g4, trivial⟩
  | panic x => exact ⟨_, _, _, rfl, rfl, g3, g4, trivial⟩
  | diverge => exact ⟨_, _, _, rfl, rfl, g3, g4, trivial⟩

theorem Dev.ask_onD {img : Bytes} {S : Nat → Prop} (ex : Bool) {p n : Nat} (hs : Span S p n) :
    OnD img S (fun _ => True) (Dev.ask ex p n) := On.weaken (Dev.ask_on ex hs) fun _ _ _ _ => trivial

/-! ### Values in clusters -/

theorem DataRun.read_on {img : Bytes} {S : Nat → Prop} {r : DataRun} (hr : RunIn S r) (buf : Bytes) :
    On img S mk4 (fun b => RunIn S b.2.1) (fun d => r.read buf d) := by
  unfold DataRun.read
  refine .ite (fun _ => .done (Res.ok 0, r, buf) hr) fun hl => ?_
  unfold DataRun.remainingLen at hl
  cases hp : r.position with
  | none =>
    refine .done (Res.ok _, { r with position := none, streamPosition := _ }, _) ?_
    exact fun p h => nomatch h
  | some p =>
    dsimp only
    refine .ite (fun _ => ?_) fun _ => .done (Res.panic _, r, buf) hr
    have hs : Span S (p + r.streamPosition) (min buf.length r.remainingLen) := by
      intro i hi
      unfold DataRun.remainingLen at hi
      rw [Nat.add_assoc]
      exact hr p hp _ (by omega)
    refine On.step (Dev.ask_on false hs) fun b _ _ => ?_
    refine ⟨_, fun d d' h => ?_, On.done (match b with
      | .ok b => (Res.ok b.length, { r with position := some p, streamPosition := r.streamPosition + b.length },
          overwrite buf 0 b)
      | .err e => (.err e, r, buf)
      | .panic e => (.panic e, r, buf)
      | .diverge => (.diverge, r, buf)) ?_⟩
    · unfold Dev.ask at h
      rw [StM.bind_apply] at h
      generalize Dev.seekStart (p + r.streamPosition) d = q at h ⊢
      obtain ⟨x, d1⟩ := q
      cases x with
      | ok u =>
        dsimp only at h ⊢
        rw [if_neg (by decide)] at h
        rw [h]
        cases b <;> rfl
      | err e => injection h with h1 h2; subst h1 h2; rfl
      | panic e => injection h with h1 h2; subst h1 h2; rfl
      | diverge => injection h with h1 h2; subst h1 h2; rfl
    · have : RunIn S r := hr
      cases b with
      | ok b => exact fun q h => hr q (hp.trans h)
      | err e => exact hr
      | panic e => exact hr
      | diverge => exact hr

/-- The current run of the stream is in `S`. -/
def StreamIn (S : Nat → Prop) (s : StreamState) : Prop := ∀ r, s.run = some r → RunIn S r

theorem readDataRun_on {img : Bytes} {S : Nat → Prop} {s : StreamState} (hs : StreamIn S s) (buf : Bytes) (br : Nat) :
    On img S mk5 (fun b => StreamIn S b.2.1) (fun d => s.readDataRun buf br d) := by
  unfold StreamState.readDataRun
  cases hr : s.run with
  | none => exact .done (Res.ok false, s, buf, br) hs
  | some r =>
    dsimp only
    refine .ite (fun _ => .done (Res.ok false, s, buf, br) hs) fun _ => ?_
    refine .ite (fun _ => .done (Res.ok false, s, buf, br) hs) fun _ => ?_
    refine On.step (DataRun.read_on (hs r hr) ((buf.drop br).take
      (br + min (buf.length - br) (s.dataSize - s.streamPosition) - br))) ?_
    rintro ⟨x, r', sl'⟩ hr' _
    have hn : ∀ m k, StreamIn S { run := some r', streamPosition := m, dataSize := k } := by
      intro m k r h
      cases h
      exact hr'
    cases x with
    | ok n =>
      refine ⟨_, fun d d' h => by rw [h], ?_⟩
      dsimp only
      exact .ite (fun _ => .done (Res.ok false, _, _, _) (hn _ _)) fun _ =>
        .done (Res.ok true, _, _, _) (hn _ _)
    | err e => exact ⟨_, fun d d' h => by rw [h], .done (Res.err e, _, _, _) (hn _ _)⟩
    | panic e => exact ⟨_, fun d d' h => by rw [h], .done (Res.panic e, _, _, _) (hn _ _)⟩
    | diverge => exact ⟨_, fun d d' h => by rw [h], .done (Res.diverge, _, _, _) (hn _ _)⟩

theorem Spec.RunsIn.next {S : Nat → Prop} {rs : DataRuns} (h : RunsIn S rs) : RunsIn S rs.next.2 :=
  fun r hr => h r (.later hr)

theorem Spec.ValueIn.nextDataRun {S : Nat → Prop} {v : NonRes} (h : ValueIn S v) : ValueIn S v.nextDataRun.2 := by
  have hn := RunsIn.next h.next
  have hy : ∀ r rs', v.runs.next = (some (.ok r), rs') → RunIn S r := fun r rs' e => h.next r (.here e)
  unfold NonRes.nextDataRun
  generalize v.runs.next = q at hn hy
  obtain ⟨x, rs'⟩ := q
  cases x with
  | none => exact ⟨h.current, hn, h.all⟩
  | some x =>
    cases x with
    | ok r => exact ⟨fun r' e => by cases e; exact hy r _ rfl, hn, h.all⟩
    | err e => exact ⟨h.current, hn, h.all⟩
    | panic e => exact ⟨h.current, hn, h.all⟩
    | diverge => exact ⟨h.current, hn, h.all⟩

theorem Spec.ValueIn.withStream {S : Nat → Prop} {v : NonRes} (h : ValueIn S v) {st : StreamState} (hs : StreamIn S st) :
    ValueIn S { v with st := st } := ⟨hs, h.next, h.all⟩

theorem NonRes.readLoop_on {img : Bytes} {S : Nat → Prop} (fuel : Nat) {v : NonRes} (hv : ValueIn S v) (buf : Bytes)
    (br : Nat) : On img S mk4 (fun b => ValueIn S b.2.1) (fun d => NonRes.readLoop fuel v buf br d) := by
  induction fuel generalizing v buf br with
  | zero => exact .done (Res.diverge, _, _) hv
  | succ fuel ih =>
    unfold NonRes.readLoop
    refine .ite (fun _ => ?_) fun _ => .done (Res.ok _, _, _) hv
    refine On.step (readDataRun_on hv.current buf br) ?_
    rintro ⟨x, st', buf', br'⟩ hst _
    have hv' := hv.withStream hst
    cases x with
    | ok b =>
      cases b with
      | true =>
        refine ⟨_, fun d d' h => by rw [h], ?_⟩
        exact ih hv' _ _
      | false =>
        refine ⟨_, fun d d' h => by rw [h], ?_⟩
        dsimp only
        have hn := hv'.nextDataRun
        generalize NonRes.nextDataRun { v with st := st' } = q at hn
        obtain ⟨x, v'⟩ := q
        cases x with
        | ok b =>
          cases b with
          | true => exact ih hn _ _
          | false => exact .done (Res.ok _, _, _) hn
        | err e => exact .done (Res.err _, _, _) hn
        | panic e => exact .done (Res.panic _, _, _) hn
        | diverge => exact .done (Res.diverge, _, _) hn
    | err e => exact ⟨_, fun d d' h => by rw [h], .done (Res.err e, _, _) hv'⟩
    | panic e => exact ⟨_, fun d d' h => by rw [h], .done (Res.panic e, _, _) hv'⟩
    | diverge => exact ⟨_, fun d d' h => by rw [h], .done (Res.diverge, _, _) hv'⟩

theorem NonRes.read_on {img : Bytes} {S : Nat → Prop} {v : NonRes} (hv : ValueIn S v) (buf : Bytes) :
    On img S mk4 (fun b => ValueIn S b.2.1) (fun d => v.read buf d) := NonRes.readLoop_on _ hv buf 0

theorem DataRun.seek_in {S : Nat → Prop} {r : DataRun} (h : RunIn S r) (pos : SeekFrom) : RunIn S (r.seek pos).2 := by
  unfold DataRun.seek
  exact h

theorem seekDataRun_in {S : Nat → Prop} {s : StreamState} (hs : StreamIn S s) (pos : SeekFrom) (left : Nat) :
    StreamIn S (s.seekDataRun pos left).2.1 := by
  unfold StreamState.seekDataRun
  cases hr : s.run with
  | none => exact hs
  | some r =>
    have hk : ∀ p, ∀ r', some (r.seek p).2 = some r' → RunIn S r' := fun p r' e => by
      cases e; exact DataRun.seek_in (hs r hr) p
    dsimp only
    split
    · cases pos with
      | start n =>
        have := hk (.start left)
        generalize r.seek (.start left) = q at this
        obtain ⟨x, r'⟩ := q
        cases x <;> exact this
      | current n =>
        have := hk (.current (toI64 left))
        generalize r.seek (.current (toI64 left)) = q at this
        obtain ⟨x, r'⟩ := q
        cases x <;> exact this
      | end_ n => exact hs
    · exact hs

theorem Spec.ValueIn.seekLoop {S : Nat → Prop} (fuel : Nat) {v : NonRes} (h : ValueIn S v) (pos : SeekFrom) (left : Nat) :
    ValueIn S (NonRes.seekLoop fuel v pos left).2 := by
  induction fuel generalizing v left with
  | zero => exact h
  | succ fuel ih =>
    unfold NonRes.seekLoop
    split
    · have hst := seekDataRun_in h.current pos left
      generalize v.st.seekDataRun pos left = q at hst
      obtain ⟨x, st', left'⟩ := q
      have h' := h.withStream hst
      cases x with
      | ok b =>
        cases b with
        | true => exact h'
        | false =>
          dsimp only
          have hn := h'.nextDataRun
          dsimp only at hn
          generalize NonRes.nextDataRun { v with st := st' } = q at hn
          obtain ⟨x, v'⟩ := q
          cases x with
          | ok b =>
            cases b with
            | true => exact ih hn _
            | false => exact ⟨fun _ h => (nomatch h), hn.next, hn.all⟩
          | err e => exact hn
          | panic e => exact hn
          | diverge => exact hn
      | err e => exact h'
      | panic e => exact h'
      | diverge => exact h'
    · exact h

theorem Spec.ValueIn.rewind {S : Nat → Prop} {v : NonRes} (h : ValueIn S v) : ValueIn S v.rewind.2 := by
  have h0 : ValueIn S { v with runs := v.dataRuns, st := StreamState.new v.len } :=
    ⟨fun _ h => (nomatch h), h.all, h.all⟩
  have hn := h0.nextDataRun
  unfold NonRes.rewind
  generalize NonRes.nextDataRun { v with runs := v.dataRuns, st := StreamState.new v.len } = q at hn
  obtain ⟨x, v'⟩ := q
  cases x <;> exact hn

theorem Spec.ValueIn.seek {S : Nat → Prop} {v : NonRes} (h : ValueIn S v) (pos : SeekFrom) : ValueIn S (v.seek pos).2 := by
  unfold NonRes.seek
  generalize v.st.optimizeSeek pos v.len = q
  cases q with
  | err e => exact h
  | panic e => exact h
  | diverge => exact h
  | ok p =>
    cases p with
    | end_ n => exact h
    | start n =>
      have hr := h.rewind
      dsimp only
      generalize v.rewind = q at hr
      obtain ⟨x, v1⟩ := q
      cases x with
      | ok u =>
        have hl := ValueIn.seekLoop (v.data.length + 2) hr (.start n) n
        dsimp only at hl ⊢
        generalize NonRes.seekLoop (v.data.length + 2) v1 (.start n) n = q at hl
        obtain ⟨x, v2⟩ := q
        cases x with
        | ok u => exact ⟨hl.current, hl.next, hl.all⟩
        | err e => exact hl
        | panic e => exact hl
        | diverge => exact hl
      | err e => exact hr
      | panic e => exact hr
      | diverge => exact hr
    | current n =>
      dsimp only
      split
      · have hl := ValueIn.seekLoop (v.data.length + 2) h (.current n) n.toNat
        generalize NonRes.seekLoop (v.data.length + 2) v (.current n) n.toNat = q at hl
        obtain ⟨x, v2⟩ := q
        cases x with
        | ok u =>
          dsimp only
          split
          · exact ⟨hl.current, hl.next, hl.all⟩
          · exact hl
        | err e => exact hl
        | panic e => exact hl
        | diverge => exact hl
      · exact h

/-- A reader of values that depends only on `S` from all states with `J`. -/
def OnRead {σ : Type} (img : Bytes) (S : Nat → Prop) (J : σ → Prop) (read : ReadFn (σ × Dev)) : Prop :=
  ∀ s, J s → ∀ buf, On img S mkR (fun b => J b.2.1) (fun d => read (s, d) buf)

theorem NonRes.readFn_on (img : Bytes) (S : Nat → Prop) : OnRead img S (ValueIn S) NonRes.readFn := by
  intro v hv buf
  refine On.step (NonRes.read_on hv buf) ?_
  rintro ⟨x, v', buf'⟩ hv' _
  refine ⟨_, fun d d' h => ?_, .done (x, v', buf') hv'⟩
  unfold NonRes.readFn
  dsimp only
  rw [h]

section Loops

variable {σ : Type} {img : Bytes} {S : Nat → Prop} {J : σ → Prop} {read : ReadFn (σ × Dev)}

theorem readExactLoop_on (hr : OnRead img S J read) (fuel : Nat) {s : σ} (hs : J s) (done buf : Bytes) :
    On img S mkR (fun b => J b.2.1) (fun d => readExactLoop read fuel (s, d) done buf) := by
  induction fuel generalizing s done buf with
  | zero => exact .done (Res.diverge, _, _) hs
  | succ fuel ih =>
    unfold readExactLoop
    refine .ite (fun _ => .done (Res.ok _, _, _) hs) fun _ => ?_
    refine On.step (hr s hs buf) ?_
    rintro ⟨x, s', buf'⟩ hs' _
    cases x with
    | ok n =>
      refine ⟨_, fun d d' h => by rw [h], ?_⟩
      dsimp only
      refine .ite (fun _ => .done (Res.err _, _, _) hs') fun _ => ?_
      exact .ite (fun _ => ih hs' _ _) fun _ => .done (Res.panic _, _, _) hs'
    | err e =>
      refine ⟨_, fun d d' h => by rw [h], ?_⟩
      dsimp only
      exact .ite (fun _ => ih hs' _ _) fun _ => .done (Res.err _, _, _) hs'
    | panic e => exact ⟨_, fun d d' h => by rw [h], .done (Res.panic e, s', done ++ buf') hs'⟩
    | diverge => exact ⟨_, fun d d' h => by rw [h], .done (Res.diverge, s', done ++ buf') hs'⟩

theorem copyLoop_on (hr : OnRead img S J read) (fuel : Nat) {s : σ} (hs : J s) (buf out : Bytes) :
    On img S mkR (fun b => J b.2.1) (fun d => copyLoop read fuel (s, d) buf out) := by
  induction fuel generalizing s buf out with
  | zero => exact .done (Res.diverge, _, _) hs
  | succ fuel ih =>
    unfold copyLoop
    refine On.step (hr s hs buf) ?_
    rintro ⟨x, s', buf'⟩ hs' _
    cases x with
    | ok n =>
      refine ⟨_, fun d d' h => by rw [h], ?_⟩
      dsimp only
      refine .ite (fun _ => .done (Res.ok _, _, _) hs') fun _ => ?_
      exact .ite (fun _ => ih hs' _ _) fun _ => .done (Res.panic _, _, _) hs'
    | err e => exact ⟨_, fun d d' h => by rw [h], .done (Res.err e, s', out) hs'⟩
    | panic e => exact ⟨_, fun d d' h => by rw [h], .done (Res.panic e, s', out) hs'⟩
    | diverge => exact ⟨_, fun d d' h => by rw [h], .done (Res.diverge, s', out) hs'⟩

theorem readExactLoop_on_fuel (hr : OnRead img S J read) {s : σ} (hs : J s) (buf : Bytes) :
    On img S mkR (fun b => J b.2.1)
      (fun d => readExactLoop read (buf.length + d.sched.length + 1) (s, d) [] buf) :=
  On.sched (f := fun k d => readExactLoop read (buf.length + k + 1) (s, d) [] buf) fun _ =>
    readExactLoop_on hr _ hs [] buf

end Loops

theorem IfOk.all {α : Type} {r : Res α} : IfOk (fun _ => True) r := fun _ _ => trivial

theorem NonRes.readExactAttached_on (img : Bytes) (S : Nat → Prop) (n : Nat) :
    OnS img S (ValueIn S) (fun _ => True) (NonRes.readExactAttached n) := by
  intro v hv
  refine On.step (readExactLoop_on_fuel (NonRes.readFn_on img S) hv (List.replicate n 0)) ?_
  rintro ⟨x, s', buf'⟩ hs' _
  cases x with
  | ok u =>
    refine ⟨_, fun d d' h => ?_, .done (Res.ok buf', s') ⟨hs', .all⟩⟩
    unfold NonRes.readExactAttached NonRes.readExact
    dsimp only
    rw [h]
  | err e =>
    refine ⟨_, fun d d' h => ?_, .done (Res.err e.viaIo, s') ⟨hs', .all⟩⟩
    unfold NonRes.readExactAttached NonRes.readExact
    dsimp only
    rw [h]
  | panic e =>
    refine ⟨_, fun d d' h => ?_, .done (Res.panic e, s') ⟨hs', .all⟩⟩
    unfold NonRes.readExactAttached NonRes.readExact
    dsimp only
    rw [h]
  | diverge =>
    refine ⟨_, fun d d' h => ?_, .done (Res.diverge, s') ⟨hs', .all⟩⟩
    unfold NonRes.readExactAttached NonRes.readExact
    dsimp only
    rw [h]

/-! ### Files -/

theorem NFile.new_on {img : Bytes} {S : Nat → Prop} (n : Ntfs) {p : Nat} (i : Nat) (h : Span S p n.fileRecordSize) :
    OnD img S (fun _ => True) (NFile.new n p i) := by
  unfold NFile.new
  rw [ask_bind]
  exact .bind (Dev.ask_onD _ h) fun _ _ => .lift .all

theorem Ntfs.new_on {img : Bytes} {S : Nat → Prop} (h : Span S 0 512) : OnD img S (fun _ => True) Ntfs.new := by
  unfold Ntfs.new
  rw [ask_bind]
  exact .bind (Dev.ask_onD _ h) fun _ _ => .lift .all

end NT
