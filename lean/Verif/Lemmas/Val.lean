import Verif.Model.FileOps
import Verif.Lemmas.AttrList
import Verif.Props.C03_ListValue

namespace NT

open Spec

/-- The value `v` consists of the bytes `c`, whatever its kind: a resident value holds them, the data
runs of a non-resident value (one attribute or a list of them) lead to them on the device. -/
def Val.Has (img c : Bytes) : Val → Prop
  | .simple (.res r) => r.data = c
  | .simple (.nonRes v) => img.length < U64 ∧
      ∃ all, v.Good img all ∧ (restBytes img all).take v.st.dataSize = c
  | .list v => img.length < U64 ∧
      ∃ gs, v.Good img gs ∧ (restBytes img gs.flatten).take v.dataSize = c

theorem Val.readsLike (img c : Bytes) :
    ReadsLike Val.readFn (fun s => s.1.Has img c ∧ s.2.Ok img) (fun s => c.drop s.1.streamPosition)
      (fun s => s.1.streamPosition) := by
  rintro ⟨v, d⟩ buf ⟨hv, hd⟩
  match v, hv with
  | .simple (.res r), hv =>
    obtain ⟨r', e, h1, h2, h3⟩ := ResVal.readsLike c r buf hv
    refine ⟨(.simple (.res r'), d), ?_, ⟨h1, hd⟩, h2, h3⟩
    unfold ResVal.readFn at e
    unfold Val.readFn Val.read SVal.read
    dsimp only at e ⊢
    rw [e]
    rfl
  | .simple (.nonRes v), ⟨himg, all, hg, hc⟩ =>
    obtain ⟨⟨v', d'⟩, e, ⟨h1, h1b, h1c, h1d⟩, h2, h3⟩ :=
      NonRes.readsLike img all v.st.dataSize himg (v, d) buf ⟨hg, hd.2, hd.1, rfl⟩
    dsimp only at h1 h1b h1c h1d h2 h3
    rw [hc] at e h2 h3
    refine ⟨(.simple (.nonRes v'), d'), ?_, ⟨⟨himg, all, h1, ?_⟩, ⟨h1c, h1b⟩⟩, h2, h3⟩
    · unfold NonRes.readFn at e
      unfold Val.readFn Val.read SVal.read
      dsimp only at e ⊢
      generalize v.read buf d = q at e ⊢
      obtain ⟨r, w, b, d2⟩ := q
      simp only [Prod.mk.injEq] at e ⊢
      obtain ⟨e1, ⟨e2, e3⟩, e4⟩ := e
      exact ⟨e1, ⟨by rw [e2], e3⟩, e4⟩
    · rw [h1d, hc]
  | .list v, ⟨himg, gs, hg, hc⟩ =>
    obtain ⟨got, v', d', h1, h2, h3, h4, h5, h6⟩ := ALVal.read_good img gs v hg himg buf d hd
    rw [hc] at h1
    refine ⟨(.list v', d'), ?_, ⟨⟨himg, gs, h3, by rw [h4, hc]⟩, h6⟩, ?_, ?_⟩
    · unfold Val.readFn Val.read
      dsimp only
      rw [h2]
      dsimp only
      rw [h1]
      rfl
    · dsimp only
      show c.drop v'.st.streamPosition = (c.drop v.st.streamPosition).drop
        ((c.drop v.st.streamPosition).take buf.length).length
      rw [h5, ← h1, List.drop_drop]
    · dsimp only
      show v'.st.streamPosition = v.st.streamPosition +
        ((c.drop v.st.streamPosition).take buf.length).length
      rw [h5, ← h1]

/-- `read_exact` on any attached value. -/
theorem val_exactLike (img c : Bytes) :
    ExactLike Val.readExactAttached (fun s => s.1.Has img c ∧ s.2.Ok img)
      (fun s => c.drop s.1.streamPosition) := by
  intro n s hP
  obtain ⟨s', hP', e, hr, _⟩ := readExactLoop_readsLike (Val.readsLike img c)
    (n + s.2.sched.length + 1) s [] (List.replicate n 0) hP (by simp; omega)
  refine ⟨s', hP', ?_⟩
  rw [List.length_replicate, List.nil_append] at e
  rw [List.length_replicate] at hr
  have e2 : s.1.readExact (List.replicate n 0) s.2 = readExactLoop Val.readFn
      (n + s.2.sched.length + 1) s [] (List.replicate n 0) := by
    unfold Val.readExact
    rw [List.length_replicate]
  obtain ⟨b, hb⟩ : ∃ b, b = c.drop s.1.streamPosition := ⟨_, rfl⟩
  dsimp only at e hr ⊢
  rw [← hb] at e hr ⊢
  unfold Val.readExactAttached
  dsimp only
  rw [e2, e]
  by_cases hn : n ≤ b.length
  · rw [if_pos hn]
    refine ⟨fun _ => ?_, fun h => by omega⟩
    have hl : (b.take n).length = n := by rw [List.length_take]; omega
    rw [hl] at hr
    rw [hl]
    refine ⟨?_, hr⟩
    simp
  · rw [if_neg hn]
    exact ⟨fun h => absurd h hn, fun _ => rfl⟩

/-- `read_exact` into a new buffer at the current position. -/
theorem Val.Has.readIntoAt {img c : Bytes} {v : Val} (hv : v.Has img c) (n : Nat) (d : Dev)
    (hd : d.Ok img) :
    ∃ d', v.readInto n d =
      (if n ≤ c.length - v.streamPosition then .ok ((c.drop v.streamPosition).take n)
        else .err (.io .unexpectedEof), d') ∧ d'.Ok img := by
  obtain ⟨s', hP', e, hr, _⟩ := readExactLoop_readsLike (Val.readsLike img c)
    (n + d.sched.length + 1) (v, d) [] (List.replicate n 0) ⟨hv, hd⟩
    (by rw [List.length_replicate]; omega)
  have e4 : v.readExact (List.replicate n 0) d = readExactLoop Val.readFn
      (n + d.sched.length + 1) (v, d) [] (List.replicate n 0) := by
    unfold Val.readExact
    rw [List.length_replicate]
  rw [List.length_replicate, List.nil_append] at e
  dsimp only at e
  refine ⟨s'.2, ?_, hP'.2⟩
  have hcl : (c.drop v.streamPosition).length = c.length - v.streamPosition := List.length_drop
  unfold Val.readInto
  rw [e4, e, hcl]
  by_cases hc : n ≤ c.length - v.streamPosition
  · rw [if_pos hc, if_pos hc]
    have hl : ((c.drop v.streamPosition).take n).length = n := by rw [List.length_take]; omega
    dsimp only
    rw [hl, List.drop_eq_nil_of_le (as := List.replicate n 0) (by rw [List.length_replicate]; omega),
      List.append_nil]
  · rw [if_neg hc, if_neg hc]

/-- One `read_exact` of an `ExactLike` reader followed by more. -/
theorem ExactLike.bind_ok {σ α : Type} {re : Nat → StM σ Bytes} {P : σ → Prop} {rest : σ → Bytes}
    (h : ExactLike re P rest) {n : Nat} {s : σ} (hP : P s) (hn : n ≤ (rest s).length) :
    ∃ s', P s' ∧ rest s' = (rest s).drop n ∧
      ∀ f : Bytes → StM σ α, (re n >>= f) s = f ((rest s).take n) s' := by
  obtain ⟨s', hP', h1, _⟩ := h n s hP
  obtain ⟨e, hr⟩ := h1 hn
  exact ⟨s', hP', hr, fun f => StM.bind_of_ok e⟩

theorem ExactLike.bind_err {σ α : Type} {re : Nat → StM σ Bytes} {P : σ → Prop} {rest : σ → Bytes}
    (h : ExactLike re P rest) {n : Nat} {s : σ} (hP : P s) (hn : (rest s).length < n) :
    ∃ s', P s' ∧
      ∀ f : Bytes → StM σ α, (re n >>= f) s = (.err (.io .unexpectedEof), s') := by
  obtain ⟨s', hP', _, h2⟩ := h n s hP
  exact ⟨s', hP', fun f => StM.bind_of_err (h2 hn)⟩

end NT
