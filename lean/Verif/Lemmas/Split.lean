import Verif.Lemmas.ListStream
import Verif.Lemmas.Stream
import Verif.Props.C12_Fixup
import Verif.Props.C24_ListEntries

/-! How the device splits its answers makes no difference: the loops of `read` end in the same state. -/

namespace NT

abbrev mk3 {α σ : Type} (b : α × σ) (d : Dev) : α × σ × Dev := (b.1, b.2, d)
abbrev mk4 {α σ τ : Type} (b : α × σ × τ) (d : Dev) : α × σ × τ × Dev := (b.1, b.2.1, b.2.2, d)
abbrev mk5 {α σ τ υ : Type} (b : α × σ × τ × υ) (d : Dev) : α × σ × τ × υ × Dev :=
  (b.1, b.2.1, b.2.2.1, b.2.2.2, d)
abbrev mkR {α σ τ : Type} (b : α × σ × τ) (d : Dev) : α × (σ × Dev) × τ := (b.1, (b.2.1, d), b.2.2)

/-- On all devices with these bytes that do not fail, `f` has one and the same result. -/
def SettledOn {β γ : Type} (img : Bytes) (mk : β → Dev → γ) (f : Dev → γ) : Prop :=
  ∃ b, ∀ d, d.Ok img → ∃ d', d'.Ok img ∧ f d = mk b d'

theorem SettledOn.done {β γ : Type} {img : Bytes} {mk : β → Dev → γ} (b : β) : SettledOn img mk (mk b) :=
  ⟨b, fun d hd => ⟨d, hd, rfl⟩⟩

theorem SettledOn.step {β γ β' γ' : Type} {img : Bytes} {mk : β → Dev → γ} {mk' : β' → Dev → γ'}
    {f : Dev → γ} {F : Dev → γ'} (hf : SettledOn img mk f)
    (h : ∀ b, ∃ G, (∀ d d', d.Ok img → d'.Ok img → f d = mk b d' → F d = G d') ∧ SettledOn img mk' G) :
    SettledOn img mk' F := by
  obtain ⟨b, hb⟩ := hf
  obtain ⟨G, h1, c, hc⟩ := h b
  refine ⟨c, fun d hd => ?_⟩
  obtain ⟨d1, g1, g2⟩ := hb d hd
  obtain ⟨d2, g3, g4⟩ := hc d1 g1
  exact ⟨d2, g3, (h1 d d1 hd g1 g2).trans g4⟩

/-- The loop of `read` of both kinds of values: `adv` goes to the next data run. -/
def runLoop {σ : Type} (get : σ → StreamState) (put : StreamState → σ → σ)
    (adv : σ → Dev → Res Bool × σ × Dev) : Nat → σ → Bytes → Nat → Dev → Res Nat × σ × Bytes × Dev
  | 0, v, buf, _, d => (.diverge, v, buf, d)
  | fuel + 1, v, buf, br, d =>
    if br < buf.length then
      match (get v).readDataRun buf br d with
      | (.ok true, st', buf', br', d') => runLoop get put adv fuel (put st' v) buf' br' d'
      | (.ok false, st', buf', br', d') =>
        match adv (put st' v) d' with
        | (.ok true, v', d'') => runLoop get put adv fuel v' buf' br' d''
        | (.ok false, v', d'') => (.ok br', v', buf', d'')
        | (.err e, v', d'') => (.err e, v', buf', d'')
        | (.panic p, v', d'') => (.panic p, v', buf', d'')
        | (.diverge, v', d'') => (.diverge, v', buf', d'')
      | (.err e, st', buf', _, d') => (.err e, put st' v, buf', d')
      | (.panic p, st', buf', _, d') => (.panic p, put st' v, buf', d')
      | (.diverge, st', buf', _, d') => (.diverge, put st' v, buf', d')
    else (.ok br, v, buf, d)

theorem NonRes.readLoop_eq (fuel : Nat) (v : NonRes) (buf : Bytes) (br : Nat) (d : Dev) :
    NonRes.readLoop fuel v buf br d =
      runLoop NonRes.st (fun st v => { v with st := st })
        (fun v d => (v.nextDataRun.1, v.nextDataRun.2, d)) fuel v buf br d := by
  induction fuel generalizing v buf br d with
  | zero => rfl
  | succ fuel ih =>
    unfold NonRes.readLoop runLoop
    split
    · generalize v.st.readDataRun buf br d = q
      obtain ⟨x, st', buf', br', d'⟩ := q
      cases x with
      | ok b =>
        cases b with
        | true => exact ih _ _ _ _
        | false =>
          dsimp only
          generalize NonRes.nextDataRun { v with st := st' } = q
          obtain ⟨x, v'⟩ := q
          cases x with
          | ok b =>
            cases b with
            | true => exact ih _ _ _ _
            | false => rfl
          | err e => rfl
          | panic e => rfl
          | diverge => rfl
      | err e => rfl
      | panic e => rfl
      | diverge => rfl
    · rfl

theorem ALVal.readLoop_eq (fuel : Nat) (v : ALVal) (buf : Bytes) (br : Nat) (d : Dev) :
    ALVal.readLoop fuel v buf br d =
      runLoop ALVal.st (fun st v => { v with st := st }) ALVal.advance fuel v buf br d := by
  induction fuel generalizing v buf br d with
  | zero => rfl
  | succ fuel ih =>
    unfold ALVal.readLoop runLoop
    split
    · generalize v.st.readDataRun buf br d = q
      obtain ⟨x, st', buf', br', d'⟩ := q
      cases x with
      | ok b =>
        cases b with
        | true => exact ih _ _ _ _
        | false =>
          dsimp only
          generalize ALVal.advance { v with st := st' } d' = q
          obtain ⟨x, v', d2⟩ := q
          cases x with
          | ok b =>
            cases b with
            | true => exact ih _ _ _ _
            | false => rfl
          | err e => rfl
          | panic e => rfl
          | diverge => rfl
      | err e => rfl
      | panic e => rfl
      | diverge => rfl
    · rfl

/-- The state after `n` more bytes `b` of the run have been read. -/
def StreamState.after (s : StreamState) (r : DataRun) (n : Nat) : StreamState :=
  { s with run := some { r with streamPosition := r.streamPosition + n }, streamPosition := s.streamPosition + n }

/-- The cases of `read_data_run` in which the run is asked. -/
theorem readDataRun_run {s : StreamState} {r : DataRun} (buf : Bytes) (br : Nat) (d : Dev)
    (hr : s.run = some r) (h1 : r.streamPosition < r.allocatedSize) (h2 : s.streamPosition < s.dataSize) :
    s.readDataRun buf br d =
      match r.read ((buf.drop br).take (min (buf.length - br) (s.dataSize - s.streamPosition))) d with
      | (.ok n, r', slice', d') =>
        if n = 0 then (.ok false, { s with run := some r' }, overwrite buf br slice', br, d')
        else (.ok true, { s with run := some r', streamPosition := s.streamPosition + n },
          overwrite buf br slice', br + n, d')
      | (.err e, r', slice', d') => (.err e, { s with run := some r' }, overwrite buf br slice', br, d')
      | (.panic p, r', slice', d') => (.panic p, { s with run := some r' }, overwrite buf br slice', br, d')
      | (.diverge, r', slice', d') => (.diverge, { s with run := some r' }, overwrite buf br slice', br, d') := by
  unfold StreamState.readDataRun
  rw [hr]
  dsimp only
  rw [if_neg (by omega), if_neg (by omega), Nat.add_sub_cancel_left]
  generalize r.read _ d = q
  obtain ⟨x, r', sl, d'⟩ := q
  cases x <;> rfl

/-- A run on the device that is read without failures. -/
theorem DataRun.read_some {r : DataRun} {p : Nat} (hp : r.position = some p) (h1 : r.streamPosition < r.allocatedSize)
    (h2 : p + r.streamPosition < U64) (buf : Bytes) (d : Dev) (hd : d.NoFail) :
    ∃ j d', d'.Ok d.img ∧ j ≤ min buf.length r.remainingLen ∧ (0 < min buf.length r.remainingLen → 0 < j) ∧
      (d.sched = [] → d'.sched = [] ∧ j = min buf.length r.remainingLen) ∧
      r.read buf d = (.ok ((d.img.drop (p + r.streamPosition)).take j).length,
        { r with streamPosition := r.streamPosition + ((d.img.drop (p + r.streamPosition)).take j).length },
        overwrite buf 0 ((d.img.drop (p + r.streamPosition)).take j), d') := by
  unfold DataRun.read
  rw [if_neg (by unfold DataRun.remainingLen; omega)]
  obtain ⟨q, al, sp⟩ := r
  dsimp only at hp
  subst hp
  dsimp only at h1 h2 ⊢
  rw [if_pos h2]
  generalize (⟨some p, al, sp⟩ : DataRun).remainingLen = m
  by_cases hs : d.sched = []
  · have e1 : Dev.seekStart (p + sp) d = (.ok (), { d with pos := p + sp }) := by
      unfold Dev.seekStart; rw [hs]
    rw [e1]
    dsimp only
    have e2 : Dev.read (min buf.length m) { d with pos := p + sp } =
        (.ok ((d.img.drop (p + sp)).take (min buf.length m)),
          { d with pos := p + sp +
            ((d.img.drop (p + sp)).take (min buf.length m)).length }) := by
      unfold Dev.read; dsimp only; rw [hs]
    rw [e2]
    refine ⟨min buf.length m, { d with pos := p + sp + ((d.img.drop (p + sp)).take (min buf.length m)).length },
      ⟨rfl, hd⟩, Nat.le_refl _, fun h => h, fun _ => ⟨hs, rfl⟩, rfl⟩
  · obtain ⟨d1, e1, g1, g2, g3⟩ := Dev.seekStart_ok (p + sp) d hd
    obtain ⟨j, d2, e2, k1, k2, k3, k4, k5, _⟩ := Dev.read_ok (min buf.length m) d1 g3
    rw [e1]
    dsimp only
    rw [e2]
    rw [g1, g2]
    exact ⟨j, d2, ⟨k3.trans g1, k5⟩, k1, k2, fun h => absurd h hs, rfl⟩

/-- What `read_data_run` does, on devices that do not fail: nothing that depends on the device; or it reads
some part of what could be read, the device says how much. -/
theorem readDataRun_split {img : Bytes} (himg : img.length < U64) (s : StreamState) (buf : Bytes) (br : Nat)
    (hbr : br < buf.length) :
    (∃ x : Res Bool, ∃ st' buf' br', (x ≠ .ok true ∨ br < br') ∧ br ≤ br' ∧ br' ≤ buf.length ∧ buf'.length = buf.length ∧
      ∀ d, d.Ok img → ∃ d', d'.Ok img ∧ s.readDataRun buf br d = (x, st', buf', br', d')) ∨
    ∃ r c, 0 < c.length ∧ br + c.length ≤ buf.length ∧
      (∀ d, d.Ok img → ∃ j d', 0 < j ∧ j ≤ c.length ∧ d'.Ok img ∧
        s.readDataRun buf br d = (.ok true, s.after r j, overwrite buf br (c.take j), br + j, d')) ∧
      ∀ j, 0 < j → j < c.length → ∀ pos, ∃ pos',
        (s.after r j).readDataRun (overwrite buf br (c.take j)) (br + j) ⟨img, pos, []⟩ =
          (.ok true, s.after r c.length, overwrite buf br c, br + c.length, ⟨img, pos', []⟩) := by
  have same : ∀ x : Res Bool, x ≠ .ok true → (∀ d, d.Ok img → s.readDataRun buf br d = (x, s, buf, br, d)) →
      (∃ x : Res Bool, ∃ st' buf' br', (x ≠ .ok true ∨ br < br') ∧ br ≤ br' ∧ br' ≤ buf.length ∧ buf'.length = buf.length ∧
      ∀ d, d.Ok img → ∃ d', d'.Ok img ∧ s.readDataRun buf br d = (x, st', buf', br', d')) :=
    fun x hx h => ⟨x, s, buf, br, .inl hx, Nat.le_refl _, by omega, rfl, fun d hd => ⟨d, hd, h d hd⟩⟩
  cases hr : s.run with
  | none =>
    exact .inl (same (.ok false) (by simp) fun d _ => by unfold StreamState.readDataRun; rw [hr])
  | some r =>
    by_cases h1 : r.streamPosition < r.allocatedSize
    case neg =>
      exact .inl (same (.ok false) (by simp) fun d _ => by
        unfold StreamState.readDataRun; rw [hr]; dsimp only; rw [if_pos (by omega)])
    by_cases h2 : s.streamPosition < s.dataSize
    case neg =>
      exact .inl (same (.ok false) (by simp) fun d _ => by
        unfold StreamState.readDataRun; rw [hr]; dsimp only
        rw [if_neg (by omega), if_pos (by omega)])
    generalize hL : min (buf.length - br) (s.dataSize - s.streamPosition) = L
    have hL1 : 0 < L := by omega
    have hL2 : br + L ≤ buf.length := by omega
    have hsl : ((buf.drop br).take L).length = L := by rw [List.length_take, List.length_drop]; omega
    have hrun := fun d => readDataRun_run buf br d hr h1 h2
    rw [hL] at hrun
    cases hp : r.position with
    | none =>
      have e : ∀ d, r.read ((buf.drop br).take L) d = (.ok (min L r.remainingLen),
          { r with streamPosition := r.streamPosition + min L r.remainingLen },
          overwrite ((buf.drop br).take L) 0 (List.replicate (min L r.remainingLen) 0), d) := by
        intro d
        unfold DataRun.read
        rw [if_neg (by unfold DataRun.remainingLen; omega), hsl]
        dsimp only
        rw [hp]
      refine .inl ⟨.ok true, s.after r (min L r.remainingLen),
        overwrite buf br (List.replicate (min L r.remainingLen) 0), br + min L r.remainingLen, .inr ?_, by omega,
        by omega, ?_,
        fun d hd => ⟨d, hd, ?_⟩⟩
      · unfold DataRun.remainingLen; omega
      · exact overwrite_length (by rw [List.length_replicate]; omega)
      · rw [hrun, e]
        dsimp only
        rw [if_neg (by unfold DataRun.remainingLen; omega),
          overwrite_slice _ _ _ _ (by rw [List.length_replicate]; omega) hL2]
        rfl
    | some p =>
      by_cases h3 : p + r.streamPosition < U64
      case neg =>
        have e : ∀ d, r.read ((buf.drop br).take L) d = (.panic .overflow, r, (buf.drop br).take L, d) := by
          intro d
          unfold DataRun.read
          rw [if_neg (by unfold DataRun.remainingLen; omega)]
          dsimp only
          rw [hp]
          dsimp only
          rw [if_neg h3]
        refine .inl ⟨.panic .overflow, { s with run := some r }, overwrite buf br ((buf.drop br).take L), br,
          .inl (by simp), Nat.le_refl _, by omega, overwrite_length (by omega), fun d hd => ⟨d, hd, ?_⟩⟩
        rw [hrun, e]
      have hread := fun d hd => DataRun.read_some hp h1 h3 ((buf.drop br).take L) d hd
      rw [hsl] at hread
      generalize hc : (img.drop (p + r.streamPosition)).take (min L r.remainingLen) = c
      have hcl : c.length ≤ min L r.remainingLen := by rw [← hc, List.length_take]; omega
      have hpart : ∀ j, j ≤ min L r.remainingLen → (img.drop (p + r.streamPosition)).take j = c.take j := by
        intro j hj
        rw [← hc, List.take_take, Nat.min_eq_left hj]
      have hm0 : 0 < min L r.remainingLen := by unfold DataRun.remainingLen; omega
      by_cases hc0 : c.length = 0
      · have hc1 : c = [] := List.eq_nil_of_length_eq_zero hc0
        refine .inl ⟨.ok false, { s with run := some r }, buf, br, .inl (by simp), Nat.le_refl _, by omega, rfl, fun d hd => ?_⟩
        obtain ⟨j, d', g1, g2, g3, _, g5⟩ := hread d hd.2
        rw [hd.1] at g1 g5
        refine ⟨d', g1, ?_⟩
        rw [hrun, g5, hpart j g2, hc1, List.take_nil]
        dsimp only [List.length_nil]
        rw [if_pos rfl, overwrite_slice _ _ _ _ (Nat.zero_le _) hL2, overwrite_nil, Nat.add_zero]
      · right
        refine ⟨r, c, by omega, by omega, fun d hd => ?_, fun j hj1 hj2 pos => ?_⟩
        · obtain ⟨j, d', g1, g2, g3, _, g5⟩ := hread d hd.2
          rw [hd.1] at g1 g5
          rw [hpart j g2] at g5
          have hj : (c.take j).length = min j c.length := List.length_take ..
          have := g3 hm0
          refine ⟨min j c.length, d', by omega, by omega, g1, ?_⟩
          rw [hrun, g5]
          dsimp only
          rw [if_neg (by omega), overwrite_slice _ _ _ _ (by omega) hL2, hj]
          unfold StreamState.after
          have : c.take j = c.take (min j c.length) := by
            rw [← List.take_take, List.take_length]
          rw [this]
        · have hlen : (c.take j).length = j := by rw [List.length_take]; omega
          have hb : (overwrite buf br (c.take j)).length = buf.length := overwrite_length (by omega)
          have hsome : (s.after r j).run = some { r with streamPosition := r.streamPosition + j } := rfl
          have hav : p + r.streamPosition + c.length ≤ img.length := by
            have : c.length ≤ img.length - (p + r.streamPosition) := by
              rw [← hc, List.length_take, List.length_drop]; omega
            omega
          rw [readDataRun_run _ _ _ hsome (by dsimp only; unfold DataRun.remainingLen at hcl; omega)
            (by unfold StreamState.after; dsimp only; omega)]
          have hL' : min ((overwrite buf br (c.take j)).length - (br + j))
              ((s.after r j).dataSize - (s.after r j).streamPosition) = L - j := by
            rw [hb]; unfold StreamState.after; dsimp only; omega
          rw [hL']
          have hsl' : (((overwrite buf br (c.take j)).drop (br + j)).take (L - j)).length = L - j := by
            rw [List.length_take, List.length_drop, hb]; omega
          obtain ⟨m, d', k1, _, _, k4, k5⟩ := DataRun.read_some
            (r := { r with streamPosition := r.streamPosition + j }) (p := p) hp
            (by dsimp only; unfold DataRun.remainingLen at hcl; omega) (by dsimp only; omega)
            (((overwrite buf br (c.take j)).drop (br + j)).take (L - j)) ⟨img, pos, []⟩
            (fun r hr => by cases hr)
          rw [hsl'] at k4
          obtain ⟨k6, k7⟩ := k4 rfl
          rw [k5]
          dsimp only at k1 k6 k7 ⊢
          have hrest : (img.drop (p + (r.streamPosition + j))).take m = c.drop j := by
            rw [← hc, List.drop_take, List.drop_drop]
            rw [show p + (r.streamPosition + j) = p + r.streamPosition + j by omega]
            congr 1
            rw [k7, show DataRun.remainingLen { r with streamPosition := r.streamPosition + j } =
              r.remainingLen - j from Nat.sub_add_eq ..]
            omega
          rw [hrest]
          have hdl : (c.drop j).length = c.length - j := List.length_drop ..
          rw [if_neg (by omega), overwrite_slice _ _ _ _ (by omega) (by rw [hb]; omega)]
          have hov : overwrite (overwrite buf br (c.take j)) (br + j) (c.drop j) = overwrite buf br c := by
            have := overwrite_append buf (c.take j) (c.drop j) br (by omega)
            rw [hlen, List.take_append_drop] at this
            exact this
          rw [hov]
          obtain ⟨i', pos', sc'⟩ := d'
          obtain ⟨rfl, _⟩ := k1
          dsimp only at k6
          subst k6
          refine ⟨pos', ?_⟩
          unfold StreamState.after
          rw [hdl]
          rw [show r.streamPosition + j + (c.length - j) = r.streamPosition + c.length by omega,
            show s.streamPosition + j + (c.length - j) = s.streamPosition + c.length by omega,
            show br + j + (c.length - j) = br + c.length by omega]

/-- The loop has one and the same result on all devices with these bytes that do not fail, if `adv` has, and
there is a bound `M` for the number of calls of `adv`. -/
theorem SettledOn.runLoop {σ : Type} {img : Bytes} (himg : img.length < U64) {get : σ → StreamState}
    {put : StreamState → σ → σ} {adv : σ → Dev → Res Bool × σ × Dev} (M : σ → Nat)
    (hput : ∀ st v, get (put st v) = st) (hput2 : ∀ st st' v, put st (put st' v) = put st v)
    (hM : ∀ st v, M (put st v) = M v)
    (hadv : ∀ v, SettledOn img mk3 (adv v))
    (hdec : ∀ v d v' d', d.Ok img → adv v d = (.ok true, v', d') → M v' < M v) (v : σ) (buf : Bytes) (br : Nat) :
    ∃ o : Res Nat × σ × Bytes, ∀ n, (buf.length - br) + M v < n → ∀ d, d.Ok img → ∃ d', d'.Ok img ∧
      NT.runLoop get put adv n v buf br d = mk4 o d' := by
  generalize hk : (buf.length - br) + M v = k
  induction k using Nat.strongRecOn generalizing v buf br with
  | ind k ih =>
  by_cases hbr : br < buf.length
  case neg =>
    refine ⟨(.ok br, v, buf), fun n hn d hd => ⟨d, hd, ?_⟩⟩
    obtain ⟨n, rfl⟩ : ∃ m, n = m + 1 := ⟨n - 1, by omega⟩
    unfold NT.runLoop
    rw [if_neg hbr]
  rcases readDataRun_split himg (get v) buf br hbr with ⟨x, st', buf', br', h1, h0, h2, h3, h4⟩ | ⟨r, c, h1, h2, h3, h4⟩
  · have noDev : ∀ o : Res Nat × σ × Bytes,
        (∀ n d d', (get v).readDataRun buf br d = (x, st', buf', br', d') →
          NT.runLoop get put adv (n + 1) v buf br d = mk4 o d') →
        ∃ o : Res Nat × σ × Bytes, ∀ n, k < n → ∀ d, d.Ok img → ∃ d', d'.Ok img ∧
          NT.runLoop get put adv n v buf br d = mk4 o d' := by
      intro o ho
      refine ⟨o, fun n hn d hd => ?_⟩
      obtain ⟨n, rfl⟩ : ∃ m, n = m + 1 := ⟨n - 1, by omega⟩
      obtain ⟨d', g1, g2⟩ := h4 d hd
      exact ⟨d', g1, ho n d d' g2⟩
    have unf : ∀ n d, NT.runLoop get put adv (n + 1) v buf br d = _ := fun n d => by
      rw [NT.runLoop, if_pos hbr]
    cases x with
    | err e => exact noDev (.err e, put st' v, buf') fun n d d' h => by rw [unf, h]
    | panic e => exact noDev (.panic e, put st' v, buf') fun n d d' h => by rw [unf, h]
    | diverge => exact noDev (.diverge, put st' v, buf') fun n d d' h => by rw [unf, h]
    | ok b =>
      cases b with
      | true =>
        have hlt : br < br' := h1.resolve_left (fun h => h rfl)
        obtain ⟨o, ho⟩ := ih ((buf'.length - br') + M (put st' v)) (by rw [hM, h3]; omega) _ _ _ rfl
        refine ⟨o, fun n hn d hd => ?_⟩
        obtain ⟨n, rfl⟩ : ∃ m, n = m + 1 := ⟨n - 1, by omega⟩
        obtain ⟨d1, g1, g2⟩ := h4 d hd
        obtain ⟨d2, g3, g4⟩ := ho n (by rw [hM, h3]; omega) d1 g1
        refine ⟨d2, g3, ?_⟩
        rw [unf, g2]
        exact g4
      | false =>
        obtain ⟨⟨x2, v2⟩, hb⟩ := hadv (put st' v)
        have onDev : ∀ o : Res Nat × σ × Bytes,
            (∀ n d d', k < n + 1 → (get v).readDataRun buf br d = (.ok false, st', buf', br', d') → d'.Ok img →
              ∃ d2, d2.Ok img ∧ NT.runLoop get put adv (n + 1) v buf br d = mk4 o d2) →
            ∃ o : Res Nat × σ × Bytes, ∀ n, k < n → ∀ d, d.Ok img → ∃ d', d'.Ok img ∧
              NT.runLoop get put adv n v buf br d = mk4 o d' := by
          intro o ho
          refine ⟨o, fun n hn d hd => ?_⟩
          obtain ⟨n, rfl⟩ : ∃ m, n = m + 1 := ⟨n - 1, by omega⟩
          obtain ⟨d', g1, g2⟩ := h4 d hd
          exact ho n d d' hn g2 g1
        cases x2 with
        | err e =>
          refine onDev (.err e, v2, buf') fun n d d' _ h hd' => ?_
          obtain ⟨d2, g1, g2⟩ := hb d' hd'
          exact ⟨d2, g1, by rw [unf, h]; dsimp only; rw [g2]⟩
        | panic e =>
          refine onDev (.panic e, v2, buf') fun n d d' _ h hd' => ?_
          obtain ⟨d2, g1, g2⟩ := hb d' hd'
          exact ⟨d2, g1, by rw [unf, h]; dsimp only; rw [g2]⟩
        | diverge =>
          refine onDev (.diverge, v2, buf') fun n d d' _ h hd' => ?_
          obtain ⟨d2, g1, g2⟩ := hb d' hd'
          exact ⟨d2, g1, by rw [unf, h]; dsimp only; rw [g2]⟩
        | ok b2 =>
          cases b2 with
          | false =>
            refine onDev (.ok br', v2, buf') fun n d d' _ h hd' => ?_
            obtain ⟨d2, g1, g2⟩ := hb d' hd'
            exact ⟨d2, g1, by rw [unf, h]; dsimp only; rw [g2]⟩
          | true =>
            have hlt : M v2 < M v := by
              obtain ⟨d2, _, g2⟩ := hb ⟨img, 0, []⟩ ⟨rfl, fun r hr => by cases hr⟩
              rw [← hM st' v]
              exact hdec _ _ _ _ ⟨rfl, fun r hr => by cases hr⟩ g2
            obtain ⟨o, ho⟩ := ih ((buf'.length - br') + M v2) (by rw [h3]; omega) _ _ _ rfl
            refine onDev o fun n d d' hn h hd' => ?_
            obtain ⟨d2, g1, g2⟩ := hb d' hd'
            obtain ⟨d3, g3, g4⟩ := ho n (by rw [h3]; omega) d2 g1
            refine ⟨d3, g3, ?_⟩
            rw [unf, h]
            dsimp only
            rw [g2]
            exact g4
  · have hlen : ∀ j, j ≤ c.length → (overwrite buf br (c.take j)).length = buf.length := fun j hj =>
      overwrite_length (by rw [List.length_take]; omega)
    have part : ∀ j, 0 < j → j ≤ c.length → ∃ o : Res Nat × σ × Bytes, ∀ n, k ≤ n → ∀ d, d.Ok img →
        ∃ d', d'.Ok img ∧ NT.runLoop get put adv n (put ((get v).after r j) v) (overwrite buf br (c.take j))
          (br + j) d = mk4 o d' := by
      intro j hj1 hj2
      obtain ⟨o, ho⟩ := ih (((overwrite buf br (c.take j)).length - (br + j)) + M (put ((get v).after r j) v))
        (by rw [hM, hlen j hj2]; omega) _ _ _ rfl
      exact ⟨o, fun n hn d hd => ho n (by rw [hM, hlen j hj2]; omega) d hd⟩
    obtain ⟨o, ho⟩ := part c.length h1 (Nat.le_refl _)
    refine ⟨o, fun n hn d hd => ?_⟩
    obtain ⟨n, rfl⟩ : ∃ m, n = m + 1 := ⟨n - 1, by omega⟩
    obtain ⟨j, d1, g1, g2, g3, g4⟩ := h3 d hd
    obtain ⟨oj, hoj⟩ := part j g1 g2
    have same : oj = o := by
      by_cases hj : j = c.length
      · subst hj
        obtain ⟨d2, _, e2⟩ := ho k (Nat.le_refl _) d1 g3
        obtain ⟨d3, _, e3⟩ := hoj k (Nat.le_refl _) d1 g3
        rw [e2] at e3
        obtain ⟨a, b, e⟩ := o
        obtain ⟨a', b', e'⟩ := oj
        simp only [mk4, Prod.mk.injEq] at e3
        obtain ⟨rfl, rfl, rfl, _⟩ := e3
        rfl
      · obtain ⟨pos', q1⟩ := h4 j g1 (by omega) 0
        have plain : ∀ p, Dev.Ok img ⟨img, p, []⟩ := fun p => ⟨rfl, fun r hr => by cases hr⟩
        obtain ⟨d2, _, e2⟩ := ho k (Nat.le_refl _) _ (plain pos')
        obtain ⟨d3, _, e3⟩ := hoj (k + 1) (by omega) _ (plain 0)
        rw [NT.runLoop, if_pos (by rw [hlen j g2]; omega), hput, q1] at e3
        dsimp only at e3
        rw [hput2] at e3
        rw [List.take_length] at e2
        rw [e2] at e3
        obtain ⟨a, b, e⟩ := o
        obtain ⟨a', b', e'⟩ := oj
        simp only [mk4, Prod.mk.injEq] at e3
        obtain ⟨rfl, rfl, rfl, _⟩ := e3
        rfl
    subst same
    obtain ⟨d2, e1, e2⟩ := hoj n (by omega) d1 g3
    refine ⟨d2, e1, ?_⟩
    rw [NT.runLoop, if_pos hbr, g4]
    exact e2

/-! ### The number of data runs that can still come -/

theorem DataRuns.next_offset {r r' : DataRuns} {x : DataRun} (h : r.next = (some (.ok x), r')) :
    r'.data = r.data ∧ r.state.offset < r'.state.offset ∧ r.state.offset < r.data.length := by
  have hs := r.next_static
  rw [h] at hs
  refine ⟨(congrArg DataRuns.data hs : _), ?_⟩
  have hlt : r.state.offset < r.data.length := by
    refine Decidable.by_contra fun hn => ?_
    have : r.data.drop r.state.offset = [] := List.drop_eq_nil_iff.2 (by omega)
    unfold DataRuns.next at h
    rw [this] at h
    cases h
  refine ⟨?_, hlt⟩
  have hv : ∀ c n b c', r.readVarBytes c n = .ok (b, c') → c'.length ≤ c.length := by
    intro c n b c' h
    unfold DataRuns.readVarBytes at h
    split at h
    · cases h
    · split at h
      · cases h; rw [List.length_drop]; omega
      · cases h
  unfold DataRuns.next at h
  split at h
  · cases h
  rename_i header cursor hc
  split at h
  · cases h
  split at h
  · cases h
  · cases h
  · cases h
  rename_i count c1 h1
  split at h
  · cases h
  split at h
  · cases h
  split at h
  · cases h
  · cases h
  · cases h
  rename_i vcn c2 h2
  unfold DataRuns.readVarUnsigned at h1
  unfold DataRuns.readVarSigned at h2
  rw [Res.bind_eq_ok] at h1 h2
  obtain ⟨⟨b1, k1⟩, g1, h1⟩ := h1
  obtain ⟨⟨b2, k2⟩, g2, h2⟩ := h2
  cases h1
  cases h2
  have := hv _ _ _ _ g1
  have := hv _ _ _ _ g2
  dsimp only at h
  split at h
  · split at h
    · cases h
    · split at h
      · cases h
      · cases h
      · cases h
      · cases h
        dsimp only
        omega
  · cases h
    dsimp only
    omega

theorem NonRes.nextDataRun_dec {v v' : NonRes} (h : v.nextDataRun = (.ok true, v')) :
    v'.runs.data.length - v'.runs.state.offset < v.runs.data.length - v.runs.state.offset := by
  unfold NonRes.nextDataRun at h
  split at h
  · cases h
  · rename_i r runs' hn
    cases h
    obtain ⟨h1, h2, h3⟩ := DataRuns.next_offset hn
    dsimp only
    rw [h1]
    omega
  · cases h
  · cases h
  · cases h

theorem StM.bind_ok_iff {σ α β : Type} {m : StM σ α} {k : α → StM σ β} {s s' : σ} {b : β} :
    (m >>= k) s = (.ok b, s') ↔ ∃ a s1, m s = (.ok a, s1) ∧ k a s1 = (.ok b, s') := by
  rw [StM.bind_apply]
  cases m s with
  | mk r s1 =>
    cases r with
    | ok a =>
      constructor
      · exact fun h => ⟨a, s1, rfl, h⟩
      · rintro ⟨a', s1', h1, h2⟩
        cases h1
        exact h2
    | err e => exact ⟨fun h => (by cases h), fun ⟨_, _, h, _⟩ => (by cases h)⟩
    | panic e => exact ⟨fun h => (by cases h), fun ⟨_, _, h, _⟩ => (by cases h)⟩
    | diverge => exact ⟨fun h => (by cases h), fun ⟨_, _, h, _⟩ => (by cases h)⟩

theorem Attr.runsData_length {a : Attr} {data : Bytes} {p : Pos}
    (h : a.nonResidentValueDataAndPosition = .ok (data, p)) : data.length ≤ a.recordData.length := by
  unfold Attr.nonResidentValueDataAndPosition at h
  simp only [Res.bind_eq_ok] at h
  obtain ⟨_, _, _, _, _, _, x, hx, h⟩ := h
  cases h
  cases hg : getRange a.recordData _ _ with
  | none => rw [hg] at hx; cases hx
  | some y =>
    rw [hg] at hx
    cases hx
    obtain ⟨_, _, rfl⟩ := getRange_isSome_iff.1 hg
    rw [List.length_take, List.length_drop]
    omega

theorem NFile.ofBytes_length {n : Ntfs} {b : Bytes} {p i : Nat} {f : NFile} (h : NFile.ofBytes n b p i = .ok f) :
    f.recordData.length = b.length := by
  unfold NFile.ofBytes at h
  simp only [Res.bind_eq_ok] at h
  obtain ⟨_, _, r, hr, _, _, h⟩ := h
  cases h
  exact (Record.fixup_length hr).1

theorem NFile.new_length {n : Ntfs} {p i : Nat} {d d' : Dev} {f : NFile} (hd : d.NoFail)
    (h : NFile.new n p i d = (.ok f, d')) : f.recordData.length = n.fileRecordSize ∧ d'.NoFail := by
  unfold NFile.new at h
  obtain ⟨d1, e1, g1, g2, g3⟩ := Dev.seekStart_ok p d hd
  rw [StM.bind_of_ok e1] at h
  obtain ⟨d2, e2, _, g5⟩ := Dev.readExact_noFail n.fileRecordSize d1 g3
  rw [StM.bind_ok_iff] at h
  obtain ⟨b, d3, h1, h2⟩ := h
  rw [e2] at h1
  split at h1
  · rename_i hc
    cases h1
    rw [StM.lift_apply] at h2
    injection h2 with h2 h3
    subst h3
    refine ⟨?_, g5⟩
    rw [NFile.ofBytes_length h2, List.length_take, List.length_drop]
    omega
  · cases h1

theorem Ntfs.file_length {n : Ntfs} {i : Nat} {d d' : Dev} {f : NFile} (hd : d.NoFail)
    (h : n.file i d = (.ok f, d')) : f.recordData.length = n.fileRecordSize := by
  unfold Ntfs.file at h
  rw [StM.bind_ok_iff] at h
  obtain ⟨o, d1, h1, h⟩ := h
  rw [StM.lift_apply] at h1
  injection h1 with _ h1
  subst h1
  cases hm : n.mftPosition with
  | none => rw [hm] at h; cases h
  | some p =>
    rw [hm] at h
    dsimp only at h
    rw [StM.bind_ok_iff] at h
    obtain ⟨mft, d1, h1, h⟩ := h
    obtain ⟨_, hd1⟩ := NFile.new_length hd h1
    rw [StM.bind_ok_iff] at h
    obtain ⟨a, d2, h2, h⟩ := h
    rw [StM.lift_apply] at h2
    injection h2 with _ h2
    subst h2
    rw [StM.bind_ok_iff] at h
    obtain ⟨v, d2, h2, h⟩ := h
    rw [StM.lift_apply] at h2
    injection h2 with _ h2
    subst h2
    generalize v.seek (.start o) = q at h
    obtain ⟨x, v'⟩ := q
    cases x with
    | ok x =>
      dsimp only at h
      cases hq : v'.dataPosition with
      | none => rw [hq] at h; cases h
      | some q => rw [hq] at h; exact (NFile.new_length hd1 h).1
    | err x => cases h
    | panic x => cases h
    | diverge => cases h

theorem ALVal.openEntry_length {n : Ntfs} {e : ListEntry} {d d' : Dev} {r : DataRun} {a : AttrState} (hd : d.NoFail)
    (h : ALVal.openEntry n e d = (.ok (some (r, a)), d')) : a.file.recordData.length = n.fileRecordSize := by
  unfold ALVal.openEntry at h
  rw [StM.bind_ok_iff] at h
  obtain ⟨f, d1, h1, h⟩ := h
  have hl := Ntfs.file_length hd h1
  rw [StM.bind_ok_iff] at h
  obtain ⟨at_, d2, _, h⟩ := h
  rw [StM.bind_ok_iff] at h
  obtain ⟨b, d3, _, h⟩ := h
  split at h
  · cases h
  rw [StM.bind_ok_iff] at h
  obtain ⟨⟨data, p⟩, d4, _, h⟩ := h
  dsimp only at h
  generalize (DataRuns.new n.clusterSize data p).next = q at h
  obtain ⟨x, runs⟩ := q
  cases x with
  | none => cases h
  | some x =>
    dsimp only at h
    rw [StM.bind_ok_iff] at h
    obtain ⟨r', d5, _, h⟩ := h
    cases h
    exact hl

/-- The bound for a value split over several attributes. -/
def ALVal.left (v : ALVal) : Nat :=
  (match v.attrState with
    | some ⟨f, _, some s⟩ => f.recordData.length - s.offset
    | _ => 0) +
  (match v.connected with
    | some l => l.remaining * (v.ntfs.fileRecordSize + 1)
    | none => 0)

theorem ALVal.left_lt (v : ALVal) : v.left < v.leftFuel := by
  unfold ALVal.left ALVal.leftFuel
  cases v.connected <;> cases v.attrState with
  | none => dsimp only; omega
  | some a =>
    obtain ⟨f, o, r⟩ := a
    cases r with
    | none => dsimp only; omega
    | some s => dsimp only; omega

theorem Attr.new_file {f : NFile} {o : Nat} {l : Option AttrList} {a : Attr} (h : Attr.new f o l = .ok a) :
    a.file = f := by
  unfold Attr.new at h
  simp only [Res.bind_eq_ok] at h
  obtain ⟨_, _, h⟩ := h
  cases h
  rfl

theorem ALVal.nextDataRun_dec (v : ALVal) :
    v.nextDataRun.2.left ≤ v.left ∧ (v.nextDataRun.1 = .ok true → v.nextDataRun.2.left < v.left) := by
  obtain ⟨ntfs, ini, con, inst, ty, size, as, st⟩ := v
  unfold ALVal.nextDataRun
  dsimp only
  cases as with
  | none => exact ⟨Nat.le_refl _, fun h => by cases h⟩
  | some a =>
    obtain ⟨f, o, r⟩ := a
    cases r with
    | none => exact ⟨Nat.le_refl _, fun h => by cases h⟩
    | some s =>
      dsimp only
      cases hq : (do let at_ ← Attr.new f o none; at_.nonResidentValueDataAndPosition : Res (Bytes × Pos)) with
      | ok x =>
        obtain ⟨data, p⟩ := x
        have hlen : data.length ≤ f.recordData.length := by
          rw [Res.bind_eq_ok] at hq
          obtain ⟨at_, h1, h2⟩ := hq
          have := Attr.runsData_length h2
          rw [Attr.recordData, Attr.new_file h1] at this
          exact this
        dsimp only
        cases hn : (DataRuns.fromState ntfs.clusterSize data p s).next with
        | mk y runs' =>
        cases y with
        | none => exact ⟨by unfold ALVal.left; dsimp only; omega, fun h => by cases h⟩
        | some y =>
          cases y with
          | ok run =>
            obtain ⟨h1, h2, h3⟩ := DataRuns.next_offset hn
            have : s.offset < runs'.state.offset := h2
            have : s.offset < data.length := h3
            exact ⟨by unfold ALVal.left; dsimp only; omega, fun _ => by unfold ALVal.left; dsimp only; omega⟩
          | err e => exact ⟨by unfold ALVal.left; dsimp only; omega, fun h => by cases h⟩
          | panic e => exact ⟨by unfold ALVal.left; dsimp only; omega, fun h => by cases h⟩
          | diverge => exact ⟨by unfold ALVal.left; dsimp only; omega, fun h => by cases h⟩
      | err e => exact ⟨by unfold ALVal.left; dsimp only; omega, fun h => by cases h⟩
      | panic e => exact ⟨by unfold ALVal.left; dsimp only; omega, fun h => by cases h⟩
      | diverge => exact ⟨by unfold ALVal.left; dsimp only; omega, fun h => by cases h⟩

theorem ALVal.nextConnected_some {v v' : ALVal} {d d' : Dev} {e : ListEntry}
    (h : ALVal.nextConnected (v, d) = (.ok (some e), (v', d'))) :
    ∃ l l', v.connected = some l ∧ v' = { v with connected := some l' } ∧ l'.remaining < l.remaining ∧
      AttrList.next (l, d) = (.ok (some e), (l', d')) := by
  unfold ALVal.nextConnected at h
  dsimp only at h
  cases hc : v.connected with
  | none => rw [hc] at h; cases h
  | some l =>
    rw [hc] at h
    dsimp only at h
    cases hn : AttrList.next (l, d) with
    | mk x s =>
    obtain ⟨l', d1⟩ := s
    rw [hn] at h
    cases x with
    | ok o =>
      cases o with
      | none => cases h
      | some e1 =>
        dsimp only at h
        split at h
        · split at h
          · split at h
            · cases h
              obtain ⟨g1, g2, g3⟩ := C24_progress l l' d d' e hn
              exact ⟨l, l', rfl, rfl, by omega, hn⟩
            · cases h
          · cases h
          · cases h
          · cases h
        · cases h
    | err e => cases h
    | panic e => cases h
    | diverge => cases h

theorem ALVal.nextAttribute_dec {v v' : ALVal} {d d' : Dev}
    (hc : ∀ e w d1, ALVal.nextConnected (v, d) = (.ok (some e), (w, d1)) → d1.NoFail)
    (h : ALVal.nextAttribute (v, d) = (.ok true, (v', d'))) : v'.left < v.left := by
  unfold ALVal.nextAttribute at h
  rw [StM.bind_ok_iff] at h
  obtain ⟨o, ⟨v1, d1⟩, h1, h⟩ := h
  cases o with
  | none => cases h
  | some e =>
    have hd1 := hc _ _ _ h1
    obtain ⟨l, l', g1, g2, g3, _⟩ := ALVal.nextConnected_some h1
    dsimp only at h
    cases hq : ALVal.openEntry v1.ntfs e d1 with
    | mk x d2 =>
    rw [hq] at h
    cases x with
    | ok o =>
      cases o with
      | none => cases h
      | some q =>
        obtain ⟨r, a⟩ := q
        have hl := ALVal.openEntry_length hd1 hq
        cases h
        subst g2
        obtain ⟨ntfs, ini, con, inst, ty, size, as, st⟩ := v
        dsimp only at g1 hl
        subst g1
        obtain ⟨f, o, rs⟩ := a
        dsimp only at hl
        have hmul : (l'.remaining + 1) * (ntfs.fileRecordSize + 1) ≤ l.remaining * (ntfs.fileRecordSize + 1) :=
          Nat.mul_le_mul_right _ g3
        rw [Nat.add_mul] at hmul
        unfold ALVal.left
        dsimp only
        cases rs with
        | none => dsimp only; omega
        | some s => dsimp only; omega
    | err e => cases h
    | panic e => cases h
    | diverge => cases h

end NT
