import Verif.Model.Attached
import Verif.Lemmas.IndexRecord
import Verif.Lemmas.Retry

/-! C69: a value attached to its reader is an ordinary file for the standard library. -/

namespace NT

namespace Spec

/-- What a program does with something that implements `std::io::Read` and `std::io::Seek`. -/
inductive StdOp
  | read (buf : Bytes)
  | readExact (buf : Bytes)
  | readToEnd (space : Nat → Nat)
  | seek (s : SeekFrom)
  | streamPosition
  | rewind

/-- The arguments can be written down in Rust; `read_to_end` always offers some space. -/
def StdOp.InRange : StdOp → Prop
  | .readToEnd space => ∀ i, 0 < space i
  | .seek s => s.InRange
  | _ => True

/-- What the program gets. -/
inductive StdOut
  | count (n : Nat) (buf : Bytes)
  | filled (buf : Bytes)
  | all (bytes : Bytes)
  | position (n : Nat)
  | rewound
  | failed (e : IoError) (buf : Bytes)
  | panicked
  | diverged
  deriving DecidableEq, Repr

/-- The same on a file in memory. -/
def Flat.std (f : Flat) : StdOp → StdOut × Flat
  | .read buf =>
    let got := (f.content.drop f.pos).take buf.length
    (.count got.length (got ++ buf.drop got.length), { f with pos := f.pos + got.length })
  | .readExact buf =>
    let rest := f.content.drop f.pos
    if buf.length ≤ rest.length then (.filled (rest.take buf.length), { f with pos := f.pos + buf.length })
    else (.failed (.plain .unexpectedEof) (rest ++ buf.drop rest.length), { f with pos := f.pos + rest.length })
  | .readToEnd _ =>
    let rest := f.content.drop f.pos
    (.all rest, { f with pos := f.pos + rest.length })
  | .seek s =>
    if validTarget (seekTarget f.pos f.len s) then
      (.position (seekTarget f.pos f.len s).toNat, { f with pos := (seekTarget f.pos f.len s).toNat })
    else (.failed (.plain .invalidInput) [], f)
  | .streamPosition => (.position f.pos, f)
  | .rewind => (.rewound, { f with pos := 0 })

/-- Any number of operations on a file in memory. -/
def Flat.stdRun (f : Flat) : List StdOp → List StdOut × Flat
  | [] => ([], f)
  | op :: ops =>
    let (o, f') := f.std op
    let (os, f'') := f'.stdRun ops
    (o :: os, f'')

end Spec

open Spec

namespace AttachedVal

/-- One operation on an attached value, with fuel for `read_to_end`. -/
def std (fuel : Nat) (a : AttachedVal) : StdOp → StdOut × AttachedVal
  | .read buf =>
    match a.read buf with
    | (.ok n, a', b) => (.count n b, a')
    | (.err e, a', b) => (.failed e b, a')
    | (.panic _, a', _) => (.panicked, a')
    | (.diverge, a', _) => (.diverged, a')
  | .readExact buf =>
    match a.readExact buf with
    | (.ok (), a', b) => (.filled b, a')
    | (.err e, a', b) => (.failed e b, a')
    | (.panic _, a', _) => (.panicked, a')
    | (.diverge, a', _) => (.diverged, a')
  | .readToEnd space =>
    match a.readToEnd space fuel with
    | (.ok (), a', b) => (.all b, a')
    | (.err e, a', b) => (.failed e b, a')
    | (.panic _, a', _) => (.panicked, a')
    | (.diverge, a', _) => (.diverged, a')
  | .seek s =>
    match a.seek s with
    | (.ok n, a') => (.position n, a')
    | (.err e, a') => (.failed e [], a')
    | (.panic _, a') => (.panicked, a')
    | (.diverge, a') => (.diverged, a')
  | .streamPosition =>
    match a.streamPosition with
    | (.ok n, a') => (.position n, a')
    | (.err e, a') => (.failed e [], a')
    | (.panic _, a') => (.panicked, a')
    | (.diverge, a') => (.diverged, a')
  | .rewind =>
    match a.rewind with
    | (.ok (), a') => (.rewound, a')
    | (.err e, a') => (.failed e [], a')
    | (.panic _, a') => (.panicked, a')
    | (.diverge, a') => (.diverged, a')

/-- Any number of operations on an attached value. -/
def stdRun (fuel : Nat) (a : AttachedVal) : List StdOp → List StdOut × AttachedVal
  | [] => ([], a)
  | op :: ops =>
    let (o, a') := a.std fuel op
    let (os, a'') := a'.stdRun fuel ops
    (o :: os, a'')

end AttachedVal

/-! ### The conversions of errors -/

/-- The error that was put into an `io::Error`. -/
def IoError.inside : IoError → Err
  | .plain e => .io e
  | .boxed e => e

theorem Err.toIo_inside (e : Err) : e.toIo.inside = e := by
  cases e <;> rfl

/-- **C69**: an error of the library is not lost on its way through `std::io::Error`: different errors stay different,
and only an interrupted reader is taken for one. -/
theorem C69_errors (e e' : Err) :
    (e.toIo = e'.toIo ↔ e = e') ∧ (e.toIo.isInterrupted = true ↔ e = .io .interrupted) ∧
      (e.toIo = .boxed e ↔ ∀ i, e ≠ .io i) := by
  refine ⟨⟨fun h => ?_, fun h => by rw [h]⟩, ⟨fun h => ?_, fun h => by subst h; rfl⟩, ⟨fun h i hi => ?_, fun h => ?_⟩⟩
  · rw [← e.toIo_inside, h, e'.toIo_inside]
  · cases e with
    | io i =>
      cases i with
      | interrupted => rfl
      | _ => cases h
    | _ => cases h
  · subst hi
    cases h
  · cases e with
    | io i => exact absurd rfl (h i)
    | _ => rfl

/-- **C69**: converting back gives the same error exactly for the errors of the reader. Every other error of the
library comes back as an I/O error. -/
theorem C69_errors_back (e : Err) : e.toIo.toErr = e ↔ ∃ i, e = .io i := by
  constructor
  · intro h
    cases e with
    | io i => exact ⟨i, rfl⟩
    | _ => cases h
  · rintro ⟨i, rfl⟩
    rfl

/-- What the model of the entries of attribute lists uses. -/
theorem Err.viaIo_eq (e : Err) : e.viaIo = e.toIo.toErr := by
  cases e <;> rfl

/-! ### The position -/

theorem StreamState.optimizeSeek_zero (s : StreamState) (h : s.streamPosition < U64) (n : Nat) :
    s.optimizeSeek (.current 0) n = .ok (.current 0) := by
  have e : checkedAddU64 s.streamPosition (0 : Int).toNat = some s.streamPosition := by
    unfold checkedAddU64
    rw [if_pos (by simpa using h)]
    rfl
  unfold StreamState.optimizeSeek StreamState.simplifySeek
  dsimp only
  rw [if_pos (Int.le_refl 0), e]

theorem NonRes.seek_zero (v : NonRes) (h : v.st.streamPosition < U64) :
    v.seek (.current 0) = (.ok v.st.streamPosition, v) := by
  have e : NonRes.seekLoop (v.data.length + 2) v (.current 0) (0 : Int).toNat = (.ok (), v) := by
    unfold NonRes.seekLoop
    rw [if_neg (by simp)]
  unfold NonRes.seek
  rw [v.st.optimizeSeek_zero h]
  dsimp only
  rw [if_pos (Int.le_refl 0), e]
  dsimp only
  rw [if_pos (by simpa using h)]
  rfl

theorem ALVal.seek_zero (v : ALVal) (h : v.st.streamPosition < U64) (d : Dev) :
    v.seek (.current 0) d = (.ok v.st.streamPosition, v, d) := by
  obtain ⟨n, hn⟩ : ∃ n, v.runFuel = n + 1 := by
    refine Nat.exists_eq_succ_of_ne_zero ?_
    unfold ALVal.runFuel
    exact Nat.mul_ne_zero (by omega) (by omega)
  have e : ALVal.seekLoop v.runFuel v (.current 0) (0 : Int).toNat d = (.ok (), v, d) := by
    rw [hn]
    unfold ALVal.seekLoop
    rw [if_neg (by simp)]
  unfold ALVal.seek
  rw [v.st.optimizeSeek_zero h]
  dsimp only
  rw [if_pos (Int.le_refl 0), e]
  dsimp only
  rw [if_pos (by simpa using h)]
  rfl

theorem Val.seek_zero (v : Val) (h : v.streamPosition < U64) (d : Dev) :
    v.seek (.current 0) d = (.ok v.streamPosition, v, d) := by
  match v, h with
  | .simple (.res r), h =>
    have h : r.streamPosition < U64 := h
    have e : checkedAddU64 r.streamPosition (0 : Int).toNat = some r.streamPosition := by
      unfold checkedAddU64
      rw [if_pos (by simpa using h)]
      rfl
    unfold Val.seek SVal.seek ResVal.seek seekContiguous
    dsimp only
    rw [if_pos (Int.le_refl 0), e]
    rfl
  | .simple (.nonRes v), h =>
    unfold Val.seek SVal.seek
    dsimp only
    rw [NonRes.seek_zero v h]
    rfl
  | .list v, h =>
    unfold Val.seek
    dsimp only
    rw [ALVal.seek_zero v h]
    rfl

/-- **C69**: asking for the position with `std::io::Seek::stream_position` (a seek by zero) gives the position of the
value and changes nothing, neither the value nor the reader, whatever state both are in. -/
theorem C69_stream_position (v : Val) (fs : Dev) (h : v.streamPosition < U64) :
    (v.attach fs).streamPosition = (.ok v.streamPosition, v.attach fs) := by
  unfold AttachedVal.streamPosition AttachedVal.seek Val.attach
  dsimp only
  rw [v.seek_zero h]
  rfl

/-! ### A history of operations -/

/-- A seek of any value. -/
theorem Val.Has.seekAny {img c : Bytes} {v : Val} (h : v.Has img c) (hp : v.streamPosition < U64) (hl : v.len < U64)
    (s : SeekFrom) (hs : s.InRange) (d : Dev) (hd : d.Ok img) :
    if validTarget (seekTarget v.streamPosition v.len s) then
      ∃ v' d', v.seek s d = (.ok (seekTarget v.streamPosition v.len s).toNat, v', d') ∧
        d'.Ok img ∧ v'.Has img c ∧ v'.len = v.len ∧
        v'.streamPosition = (seekTarget v.streamPosition v.len s).toNat
    else v.seek s d = (.err (.io .invalidInput), v, d) := by
  match v, h, hp, hl with
  | .simple (.res r), h, hp, hl =>
    have h0 : seekContiguous r.streamPosition r.len s = _ := seekContiguous_spec r.streamPosition r.len s hs hp hl
    show if validTarget (seekTarget r.streamPosition r.len s) then _ else _
    have e : (Val.simple (.res r)).seek s d =
        ((seekContiguous r.streamPosition r.len s).1,
          .simple (.res { r with streamPosition := (seekContiguous r.streamPosition r.len s).2 }), d) := rfl
    rw [h0] at e
    by_cases hv : validTarget (seekTarget r.streamPosition r.len s)
    · rw [if_pos hv] at e ⊢
      exact ⟨_, _, e, hd, h, rfl, rfl⟩
    · rw [if_neg hv] at e ⊢
      exact e
  | .simple (.nonRes v), h, _, _ => exact h.seek (cs := v.clusterSize) rfl s hs d hd
  | .list v, h, _, _ => exact h.seek (cs := v.ntfs.clusterSize) rfl s hs d hd

/-- The reads of a value, with what does not change. -/
theorem Val.readsLikeLen (img c : Bytes) (len : Nat) (hlen : len < U64) :
    ReadsLike Val.readFn (fun s => s.1.Has img c ∧ s.2.Ok img ∧ s.1.len = len ∧ s.1.streamPosition < U64)
      (fun s => c.drop s.1.streamPosition) (fun s => s.1.streamPosition) := by
  rintro ⟨v, d⟩ buf ⟨hv, hd, hl, hp⟩
  obtain ⟨⟨v', d'⟩, e, ⟨h1, h2⟩, h3, h4⟩ := Val.readsLike img c (v, d) buf ⟨hv, hd⟩
  refine ⟨(v', d'), e, ⟨h1, h2, ?_, ?_⟩, h3, h4⟩
  · dsimp only at hl ⊢
    rw [← hl]
    match v, hv with
    | .simple (.res r), hv =>
      have : v' = .simple (.res (r.read buf).2.1) := by
        have e2 := congrArg (fun x => x.2.1.1) e
        exact e2.symm
      rw [this, ResVal.read_eq]
      rfl
    | .simple (.nonRes w), ⟨himg, all, hg, hc⟩ =>
      obtain ⟨⟨w', d2⟩, e2, ⟨_, _, _, g⟩, _⟩ :=
        NonRes.readsLike img all w.st.dataSize himg (w, d) buf ⟨hg, hd.2, hd.1, rfl⟩
      have h5 : v' = .simple (.nonRes (w.read buf d).2.1) := (congrArg (fun x => x.2.1.1) e).symm
      have h6 : w' = (w.read buf d).2.1 := (congrArg (fun x => x.2.1.1) e2).symm
      rw [h5, ← h6]
      exact g
    | .list w, ⟨himg, gs, hg, hc⟩ =>
      obtain ⟨got, w', d2, _, e2, _, g, _⟩ := ALVal.read_good img gs w hg himg buf d hd
      have h5 : v' = .list (w.read buf d).2.1 := (congrArg (fun x => x.2.1.1) e).symm
      rw [h5, e2]
      exact g
  · have hc : c.length ≤ v.len := hv.length_le
    dsimp only at h4 hl hp ⊢
    rw [h4, List.length_take, List.length_drop]
    omega

/-- The `read` of an attached value, in terms of that of the value. -/
theorem AttachedVal.read_eq (v : Val) (d : Dev) (buf : Bytes) :
    (v.attach d).read buf =
      ((Val.readFn (v, d) buf).1.toIo, (Val.readFn (v, d) buf).2.1.1.attach (Val.readFn (v, d) buf).2.1.2,
        (Val.readFn (v, d) buf).2.2) := rfl

/-- `read_exact` of the standard library over an attached value is `NtfsReadSeek::read_exact` of the value. -/
theorem AttachedVal.readExactLoop_eq (fuel : Nat) (v : Val) (d : Dev) (done buf : Bytes) :
    stdReadExact AttachedVal.read fuel (v.attach d) done buf =
      ((readExactLoop Val.readFn fuel (v, d) done buf).1.toIo,
        (readExactLoop Val.readFn fuel (v, d) done buf).2.1.1.attach
          (readExactLoop Val.readFn fuel (v, d) done buf).2.1.2,
        (readExactLoop Val.readFn fuel (v, d) done buf).2.2) := by
  induction fuel generalizing v d done buf with
  | zero => rfl
  | succ fuel ih =>
    unfold stdReadExact readExactLoop
    by_cases hb : buf = []
    · subst hb
      rw [if_pos rfl, if_pos (List.length_nil), List.append_nil]
      rfl
    · rw [if_neg hb, if_neg (by simpa using hb), AttachedVal.read_eq]
      generalize Val.readFn (v, d) buf = x
      obtain ⟨r, ⟨v', d'⟩, b⟩ := x
      cases r with
      | ok n =>
        dsimp only [Res.toIo]
        by_cases h0 : n = 0
        · rw [if_pos h0, if_pos h0]
          rfl
        · rw [if_neg h0, if_neg h0]
          by_cases h1 : n ≤ b.length
          · rw [if_pos h1, if_pos h1]
            exact ih v' d' _ _
          · rw [if_neg h1, if_neg h1]
      | err e =>
        dsimp only [Res.toIo]
        by_cases he : e = .io .interrupted
        · rw [if_pos he, if_pos ((C69_errors e e).2.1.2 he)]
          exact ih v' d' _ _
        · rw [if_neg he, if_neg (fun h => he ((C69_errors e e).2.1.1 h))]
      | panic p => rfl
      | diverge => rfl

/-- **C69**: `std::io::Read::read_exact` on an attached value does the same as `NtfsReadSeek::read_exact` on the
value, on every device and with every outcome; the error is the same one, converted. -/
theorem C69_read_exact (v : Val) (fs : Dev) (buf : Bytes) :
    (v.attach fs).readExact buf =
      ((v.readExact buf fs).1.toIo, (v.readExact buf fs).2.1.1.attach (v.readExact buf fs).2.1.2,
        (v.readExact buf fs).2.2) :=
  AttachedVal.readExactLoop_eq _ v fs [] buf

/-- `read_to_end` collects what is left. -/
theorem stdReadToEnd_eq (img c : Bytes) (len : Nat) (hlen : len < U64) (space : Nat → Nat)
    (hs : ∀ i, 0 < space i) (fuel i : Nat) (v : Val) (d : Dev) (out : Bytes)
    (hP : v.Has img c ∧ d.Ok img ∧ v.len = len ∧ v.streamPosition < U64)
    (hf : (c.drop v.streamPosition).length < fuel) :
    ∃ (v' : Val) (d' : Dev), stdReadToEnd AttachedVal.read space fuel i (v.attach d) out =
        (.ok (), v'.attach d', out ++ c.drop v.streamPosition) ∧
      (v'.Has img c ∧ d'.Ok img ∧ v'.len = len ∧ v'.streamPosition < U64) ∧
      v'.streamPosition = v.streamPosition + (c.drop v.streamPosition).length := by
  induction fuel generalizing i v d out with
  | zero => omega
  | succ fuel ih =>
    obtain ⟨⟨v', d'⟩, e, hP', hr, hpos⟩ := Val.readsLikeLen img c len hlen (v, d) (List.replicate (space i) 0) hP
    unfold stdReadToEnd
    rw [AttachedVal.read_eq, e]
    dsimp only [Res.toIo] at hr hpos ⊢
    rw [List.length_replicate] at hr hpos ⊢
    have hsi := hs i
    obtain ⟨got, hgot⟩ : ∃ got, got = (c.drop v.streamPosition).take (space i) := ⟨_, rfl⟩
    rw [← hgot] at hr hpos ⊢
    have hgl : got.length = min (space i) (c.drop v.streamPosition).length := by rw [hgot, List.length_take]
    by_cases h0 : got.length = 0
    · have hnil : c.drop v.streamPosition = [] := List.eq_nil_of_length_eq_zero (by omega)
      rw [if_pos h0]
      refine ⟨v', d', by rw [hnil, List.append_nil], hP', ?_⟩
      rw [hpos, hnil, h0]
      rfl
    · rw [if_neg h0, if_pos (by simp), List.take_left]
      obtain ⟨v2, d2, g1, g2, g3⟩ := ih (i + 1) v' d' (out ++ got) hP' (by rw [hr, List.length_drop]; omega)
      refine ⟨v2, d2, ?_, g2, ?_⟩
      · rw [g1, hr, List.append_assoc]
        congr 3
        have : got = (c.drop v.streamPosition).take got.length := by
          rw [hgot, List.length_take, List.take_eq_take_iff]
          omega
        conv => lhs; lhs; rw [this]
        exact List.take_append_drop _ _
      · rw [g3, hr, hpos, List.length_drop]
        omega

/-- The file in memory that a value stands for. -/
def Val.flat (v : Val) (c : Bytes) : Flat := { content := c, len := v.len, pos := v.streamPosition }

theorem AttachedVal.std_step {img c : Bytes} {len : Nat} (hlen : len < U64) (fuel : Nat) (hf : c.length < fuel)
    (v : Val) (d : Dev) (hP : v.Has img c ∧ d.Ok img ∧ v.len = len ∧ v.streamPosition < U64) (op : StdOp)
    (hop : op.InRange) :
    ∃ (v' : Val) (d' : Dev), (v.attach d).std fuel op = (((v.flat c).std op).1, v'.attach d') ∧
      (v'.Has img c ∧ d'.Ok img ∧ v'.len = len ∧ v'.streamPosition < U64) ∧
      v'.flat c = ((v.flat c).std op).2 := by
  have fl : ∀ (v' : Val) (n : Nat), v'.len = len → v'.streamPosition = n →
      v'.flat c = { v.flat c with pos := n } := by
    intro v' n h1 h2
    unfold Val.flat
    rw [h1, h2, hP.2.2.1]
  cases op with
  | read buf =>
    obtain ⟨⟨v', d'⟩, e, hP', hr, hpos⟩ := Val.readsLikeLen img c len hlen (v, d) buf hP
    refine ⟨v', d', ?_, hP', fl _ _ hP'.2.2.1 hpos⟩
    unfold AttachedVal.std
    dsimp only
    rw [AttachedVal.read_eq, e]
    rfl
  | readExact buf =>
    obtain ⟨⟨v', d'⟩, hP', e, hr, hpos⟩ := readExactLoop_readsLike (Val.readsLikeLen img c len hlen)
      (buf.length + d.sched.length + 1) (v, d) [] buf hP (by omega)
    dsimp only at e hr hpos
    unfold AttachedVal.std
    dsimp only
    rw [C69_read_exact]
    unfold Val.readExact
    rw [e]
    dsimp only [Flat.std, Val.flat]
    by_cases hc : buf.length ≤ (c.drop v.streamPosition).length
    · have hl : ((c.drop v.streamPosition).take buf.length).length = buf.length := by
        rw [List.length_take]; omega
      rw [if_pos hc, if_pos hc, hl, List.drop_length, List.append_nil, List.nil_append]
      rw [hl] at hpos
      exact ⟨v', d', rfl, hP', fl _ _ hP'.2.2.1 hpos⟩
    · have hl : (c.drop v.streamPosition).take buf.length = c.drop v.streamPosition :=
        List.take_of_length_le (by omega)
      rw [if_neg hc, if_neg hc, hl, List.nil_append]
      rw [hl] at hpos
      exact ⟨v', d', rfl, hP', fl _ _ hP'.2.2.1 hpos⟩
  | readToEnd space =>
    obtain ⟨v', d', e, hP', hpos⟩ := stdReadToEnd_eq img c len hlen space hop fuel 0 v d [] hP
      (by rw [List.length_drop]; omega)
    refine ⟨v', d', ?_, hP', fl _ _ hP'.2.2.1 hpos⟩
    unfold AttachedVal.std AttachedVal.readToEnd
    dsimp only
    rw [e]
    rfl
  | seek s =>
    have h := hP.1.seekAny hP.2.2.2 (by rw [hP.2.2.1]; exact hlen) s hop d hP.2.1
    unfold AttachedVal.std AttachedVal.seek
    dsimp only [Val.attach, Flat.std, Val.flat]
    by_cases hv : validTarget (seekTarget v.streamPosition v.len s)
    · rw [if_pos hv] at h ⊢
      obtain ⟨v', d', e, h1, h2, h3, h4⟩ := h
      rw [e]
      refine ⟨v', d', rfl, ⟨h2, h1, h3.trans hP.2.2.1, ?_⟩, fl _ _ (h3.trans hP.2.2.1) h4⟩
      rw [h4]
      have := hv.2
      have := hv.1
      omega
    · rw [if_neg hv] at h ⊢
      rw [h]
      exact ⟨v, d, rfl, hP, rfl⟩
  | streamPosition =>
    refine ⟨v, d, ?_, hP, rfl⟩
    unfold AttachedVal.std
    dsimp only
    rw [C69_stream_position v d hP.2.2.2]
    rfl
  | rewind =>
    have h := hP.1.seekAny hP.2.2.2 (by rw [hP.2.2.1]; exact hlen) (.start 0) (by unfold SeekFrom.InRange; decide) d
      hP.2.1
    have ht : seekTarget v.streamPosition v.len (.start 0) = 0 := rfl
    rw [ht, if_pos ⟨by decide, by decide⟩] at h
    obtain ⟨v', d', e, h1, h2, h3, h4⟩ := h
    refine ⟨v', d', ?_, ⟨h2, h1, h3.trans hP.2.2.1, by rw [h4]; decide⟩, fl _ _ (h3.trans hP.2.2.1) h4⟩
    unfold AttachedVal.std AttachedVal.rewind AttachedVal.seek
    dsimp only [Val.attach]
    rw [e]
    rfl

/-- **C69**: a value of any kind that is attached to a reader can be used as a file by everything that works with
`std::io::Read` and `std::io::Seek`. Any number of `read`, `read_exact`, `read_to_end`, `seek`, `stream_position`
and `rewind` in any order gives what a file in memory with the bytes of the value gives, however the reader splits
its answers and whatever amounts `read_to_end` asks for. The value that is detached afterwards stands at the same
position, and still has these bytes. -/
theorem C69_std_file {img c : Bytes} {v : Val} (hv : v.Has img c) (hp : v.streamPosition < U64) (hl : v.len < U64)
    (fs : Dev) (hd : fs.Ok img) (fuel : Nat) (hf : c.length < fuel) (ops : List StdOp) (hops : ∀ op ∈ ops, op.InRange) :
    ∃ (v' : Val) (fs' : Dev), ((v.attach fs).stdRun fuel ops).1 = ((v.flat c).stdRun ops).1 ∧
      ((v.attach fs).stdRun fuel ops).2.detach = (v', fs') ∧ v'.Has img c ∧ fs'.Ok img ∧
      v'.flat c = ((v.flat c).stdRun ops).2 := by
  suffices h : ∀ (v : Val) (d : Dev), (v.Has img c ∧ d.Ok img ∧ v.len < U64 ∧ v.streamPosition < U64) →
      ∃ (v' : Val) (d' : Dev), (v.attach d).stdRun fuel ops = (((v.flat c).stdRun ops).1, v'.attach d') ∧
        v'.Has img c ∧ d'.Ok img ∧ v'.flat c = ((v.flat c).stdRun ops).2 by
    obtain ⟨v', d', e, h⟩ := h v fs ⟨hv, hd, hl, hp⟩
    rw [e]
    exact ⟨v', d', rfl, rfl, h⟩
  clear hv hd hp hl fs v
  induction ops with
  | nil => intro v d h; exact ⟨v, d, rfl, h.1, h.2.1, rfl⟩
  | cons op ops ih =>
    intro v d h
    obtain ⟨v1, d1, e1, h1, h2⟩ := AttachedVal.std_step h.2.2.1 fuel hf v d ⟨h.1, h.2.1, rfl, h.2.2.2⟩ op
      (hops op List.mem_cons_self)
    obtain ⟨v2, d2, e2, h3⟩ := ih (fun o ho => hops o (List.mem_cons_of_mem _ ho)) v1 d1
      ⟨h1.1, h1.2.1, by rw [h1.2.2.1]; exact h.2.2.1, h1.2.2.2⟩
    refine ⟨v2, d2, ?_, ?_⟩
    · unfold AttachedVal.stdRun Flat.stdRun
      dsimp only
      rw [e1]
      dsimp only
      rw [e2, h2]
    · unfold Flat.stdRun
      dsimp only
      rw [← h2]
      exact h3

theorem Val.Has.empty {img c : Bytes} {v : Val} (hv : v.Has img c) (h : v.len = 0) : c = [] := by
  match v, hv, h with
  | .simple (.res r), hv, h =>
    have : r.data.length = 0 := h
    rw [← hv]
    exact List.length_eq_zero_iff.1 this
  | .simple (.nonRes v), hv, h =>
    obtain ⟨_, all, _, hv⟩ := hv
    have : v.st.dataSize = 0 := h
    rw [← hv, this]
    rfl
  | .list v, hv, h =>
    obtain ⟨_, gs, _, hv⟩ := hv
    have : v.dataSize = 0 := h
    rw [← hv, this]
    rfl

/-- **C69**: `is_empty` tells, at any time, whether the end is at 0, and no byte is ever read from an empty value. -/
theorem C69_is_empty {img c : Bytes} {v : Val} (hv : v.Has img c) (hp : v.streamPosition < U64) (hl : v.len < U64)
    (fs : Dev) (hd : fs.Ok img) (fuel : Nat) (hf : c.length < fuel) (ops : List StdOp) (hops : ∀ op ∈ ops, op.InRange) :
    (((v.attach fs).stdRun fuel ops).2.isEmpty = (v.attach fs).isEmpty) ∧
    ((v.attach fs).isEmpty = true ↔ ∃ a', (v.attach fs).seek (.end_ 0) = (.ok 0, a')) ∧
    ((v.attach fs).isEmpty = true → c = []) := by
  have key : ∀ (v : Val) (fs : Dev), (v.attach fs).isEmpty = true ↔ v.len = 0 := by
    intro v fs
    unfold AttachedVal.isEmpty AttachedVal.len
    exact beq_iff_eq
  obtain ⟨v', fs', _, e, _, _, hflat⟩ := C69_std_file hv hp hl fs hd fuel hf ops hops
  have hlen : v'.len = v.len := by
    have h1 : ∀ (ops : List StdOp) (f : Flat), (f.stdRun ops).2.len = f.len := by
      intro ops
      induction ops with
      | nil => intro f; rfl
      | cons op ops ih =>
        intro f
        unfold Flat.stdRun
        dsimp only
        rw [ih]
        cases op <;> unfold Flat.std <;> dsimp only <;> first | rfl | (split <;> rfl)
    have := congrArg Flat.len hflat
    rw [h1] at this
    exact this
  refine ⟨?_, ?_, fun h => hv.empty ((key v fs).1 h)⟩
  · have : ((v.attach fs).stdRun fuel ops).2 = v'.attach fs' := by
      generalize ((v.attach fs).stdRun fuel ops).2 = a at e
      obtain ⟨v1, d1⟩ := a
      cases e
      rfl
    rw [this, Bool.eq_iff_iff, key, key, hlen]
  · rw [key]
    obtain ⟨s, hs⟩ : ∃ s, s = SeekFrom.end_ 0 := ⟨_, rfl⟩
    have ht : seekTarget v.streamPosition v.len s = (v.len : Int) := by rw [hs]; simp [seekTarget]
    have h := hv.seekAny hp hl s (by rw [hs]; unfold SeekFrom.InRange; omega) fs hd
    rw [ht, if_pos (by unfold validTarget; omega)] at h
    rw [← hs]
    obtain ⟨v2, d2, e2, _, _, _, _⟩ := h
    unfold AttachedVal.seek
    dsimp only [Val.attach]
    rw [e2]
    constructor
    · intro h0
      refine ⟨_, by rw [h0]; rfl⟩
    · rintro ⟨a', h⟩
      have := (Prod.mk.inj h).1
      injection this with this

/-! ### Readers that fail -/

theorem stdReadToEnd_calm (img c : Bytes) (len : Nat) (hlen : len < U64) (F : IoErr → Prop) (hF : ¬ F .interrupted)
    (space : Nat → Nat) (hs : ∀ i, 0 < space i) (fuel i : Nat) (v : Val) (d : Dev) (out : Bytes)
    (hP : v.Has img c ∧ d.img = img ∧ v.len = len ∧ v.streamPosition < U64) (hd : d.FailsIn F)
    (hf : (c.drop v.streamPosition).length < fuel) :
    ((stdReadToEnd AttachedVal.read space fuel i (v.attach d) out).1 = .ok () ∧
      (stdReadToEnd AttachedVal.read space fuel i (v.attach d) out).2.2 = out ++ c.drop v.streamPosition) ∨
    ∃ e n, F e ∧ (stdReadToEnd AttachedVal.read space fuel i (v.attach d) out).1 = .err (.plain e) ∧
      (stdReadToEnd AttachedVal.read space fuel i (v.attach d) out).2.2 =
        out ++ (c.drop v.streamPosition).take n := by
  induction fuel generalizing i v d out with
  | zero => omega
  | succ fuel ih =>
    unfold stdReadToEnd
    rw [AttachedVal.read_eq]
    rcases Val.readFn_faithful (F := F) (k := 0) hF v d (List.replicate (space i) 0) hd with ⟨g1, g2⟩ | ⟨e, g1, g2⟩
    · obtain ⟨⟨v', d'⟩, e, hP', hr, hpos⟩ := Val.readsLikeLen img c len hlen (v, d.heal 0)
        (List.replicate (space i) 0) ⟨hP.1, hP.2.1 ▸ d.heal_ok 0, hP.2.2⟩
      rw [e] at g2
      generalize Val.readFn (v, d) (List.replicate (space i) 0) = q at g1 g2
      obtain ⟨r, ⟨v1, d1⟩, b⟩ := q
      dsimp only at g1 g2 hr hpos
      simp only [Prod.mk.injEq] at g2
      obtain ⟨rfl, ⟨rfl, hh⟩, rfl⟩ := g2
      have him : d1.img = img := by
        have := hP'.2.1.1
        dsimp only at this
        rw [hh] at this
        exact this
      dsimp only [Res.toIo]
      rw [List.length_replicate] at hr hpos ⊢
      have hsi := hs i
      obtain ⟨got, hgot⟩ : ∃ got, got = (c.drop v.streamPosition).take (space i) := ⟨_, rfl⟩
      rw [← hgot] at hr hpos ⊢
      have hgl : got.length = min (space i) (c.drop v.streamPosition).length := by rw [hgot, List.length_take]
      have hcat : got ++ (c.drop v.streamPosition).drop got.length = c.drop v.streamPosition := by
        have : got = (c.drop v.streamPosition).take got.length := by
          rw [hgot, List.length_take, List.take_eq_take_iff]
          omega
        conv => lhs; lhs; rw [this]
        exact List.take_append_drop _ _
      by_cases h0 : got.length = 0
      · have hnil : c.drop v.streamPosition = [] := List.eq_nil_of_length_eq_zero (by omega)
        rw [if_pos h0]
        exact .inl ⟨rfl, by rw [hnil, List.append_nil]⟩
      · rw [if_neg h0, if_pos (by simp), List.take_left]
        rcases ih (i + 1) v' d1 (out ++ got) ⟨hP'.1, him, hP'.2.2⟩ g1 (by rw [hr, List.length_drop]; omega) with
          ⟨q1, q2⟩ | ⟨e, n, q1, q2, q3⟩
        · refine .inl ⟨q1, ?_⟩
          rw [q2, hr, List.append_assoc, hcat]
        · refine .inr ⟨e, got.length + n, q1, q2, ?_⟩
          rw [q3, hr, List.append_assoc]
          congr 1
          conv => rhs; rw [← hcat]
          rw [List.take_append, List.take_of_length_le (Nat.le_add_right _ _)]
          congr 2
          omega
    · generalize Val.readFn (v, d) (List.replicate (space i) 0) = q at g2
      obtain ⟨r, ⟨v1, d1⟩, b⟩ := q
      dsimp only at g2
      subst g2
      have he : (Err.io e).toIo.isInterrupted = false := by
        cases hx : (Err.io e).toIo.isInterrupted with
        | false => rfl
        | true =>
          have := (C69_errors (.io e) (.io e)).2.1.1 hx
          injection this with this
          exact absurd (this ▸ g1) hF
      dsimp only [Res.toIo]
      rw [he]
      exact .inr ⟨e, 0, g1, rfl, by rw [List.take_zero, List.append_nil]; rfl⟩

/-- **C69**, without `Interrupted`: whatever the reader does, `read_to_end` either gives all bytes that are left, or
reports an error of the reader, and what it has collected until then is a beginning of these bytes. Missing for the
full claim: a reader that is interrupted, which the standard library does not take for a failure
(`C69_interrupted_negation`). -/
theorem C69_read_to_end_partial {img c : Bytes} {v : Val} (hv : v.Has img c) (hp : v.streamPosition < U64)
    (hl : v.len < U64) (fs : Dev) (hi : fs.img = img) (hc : fs.Calm) (space : Nat → Nat) (hs : ∀ i, 0 < space i)
    (fuel : Nat) (hf : c.length < fuel) :
    (((v.attach fs).readToEnd space fuel).1 = .ok () ∧
      ((v.attach fs).readToEnd space fuel).2.2 = c.drop v.streamPosition) ∨
    ∃ e n, .fail e ∈ fs.sched ∧ ((v.attach fs).readToEnd space fuel).1 = .err (.plain e) ∧
      ((v.attach fs).readToEnd space fuel).2.2 = (c.drop v.streamPosition).take n := by
  have h := stdReadToEnd_calm img c v.len hl (fun e => .fail e ∈ fs.sched) (fun h => hc _ h rfl) space hs fuel 0 v fs []
    ⟨hv, hi, rfl, hp⟩ (fun e he => he) (by rw [List.length_drop]; omega)
  rw [List.nil_append] at h
  rcases h with h | ⟨e, n, h1, h2, h3⟩
  · exact .inl h
  · rw [List.nil_append] at h3
    exact .inr ⟨e, n, h1, h2, h3⟩

/-- What `read_to_end` makes of the value 04 05 06 07 08 09 0a 0b that lies in two adjacent runs, on a device with this
schedule. -/
def exAttachedRead (sched : List Resp) : Option (IoRes Unit × Bytes) :=
  match NonRes.new 4 [0x11, 1, 1, 0x11, 1, 1] none 8 with
  | .ok v =>
    let x := ((Val.simple (.nonRes v)).attach ⟨[0, 1, 2, 3, 4, 5, 6, 7, 8, 9, 10, 11], 0, sched⟩).readToEnd
      (fun _ => 32) 20
    some (x.1, x.2.2)
  | _ => none

/-- **C69** fails on a reader that is interrupted (as C07): `read_to_end` reports success and has lost the first
half of the value. -/
theorem C69_interrupted_negation :
    exAttachedRead [] = some (.ok (), [4, 5, 6, 7, 8, 9, 10, 11]) ∧
    exAttachedRead [.chunk 9, .chunk 9, .fail .interrupted] = some (.ok (), [8, 9, 10, 11]) ∧
    exAttachedRead [.chunk 9, .chunk 9, .fail (.other 5)] = some (.err (.plain (.other 5)), []) := by
  decide +kernel

/-- A fragmented value with a hole, over a reader that gives at most two bytes per call: reading some bytes exactly,
asking for the position, reading the rest, going back, and trying to go before the start. -/
example : ∃ v, NonRes.new 4 [0x11, 1, 2, 0x01, 1, 0x11, 1, 0xFF, 0] none 10 = .ok v ∧
    (((Val.simple (.nonRes v)).attach
      ⟨[0, 1, 2, 3, 4, 5, 6, 7, 8, 9, 10, 11], 0, List.replicate 20 (.chunk 1)⟩).stdRun 11
      [.readExact [77, 77, 77], .streamPosition, .readToEnd fun i => i + 2, .readExact [77], .rewind,
        .read [77, 77], .seek (.end_ (-11))]).1 =
      [.filled [8, 9, 10], .position 3, .all [11, 0, 0, 0, 0, 4, 5], .failed (.plain .unexpectedEof) [77], .rewound,
        .count 2 [8, 9], .failed (.plain .invalidInput) []] := by
  have hst : StoredAs 4 [0, 1, 2, 3, 4, 5, 6, 7, 8, 9, 10, 11] [0x11, 1, 2, 0x01, 1, 0x11, 1, 0xFF, 0]
      [⟨1, some 2⟩, ⟨1, none⟩, ⟨1, some 1⟩] := exampleStored
  obtain ⟨v, h1, h2, h3, h4, _⟩ := NonRes.new_good hst none 10 (by decide)
  have hh : Val.Has [0, 1, 2, 3, 4, 5, 6, 7, 8, 9, 10, 11] [8, 9, 10, 11, 0, 0, 0, 0, 4, 5]
      (.simple (.nonRes v)) := ⟨by decide, _, h2, by rw [h3, restBytes_runOf]; decide⟩
  refine ⟨v, h1, ?_⟩
  have hp : (Val.simple (.nonRes v)).streamPosition = 0 := h4
  have hl : (Val.simple (.nonRes v)).len = 10 := h3
  obtain ⟨_, _, e, _⟩ := C69_std_file hh (by rw [hp]; decide) (by rw [hl]; decide)
    ⟨[0, 1, 2, 3, 4, 5, 6, 7, 8, 9, 10, 11], 0, List.replicate 20 (.chunk 1)⟩
    ⟨rfl, by intro r hr e; rw [List.eq_of_mem_replicate hr]; simp⟩ 11 (by decide)
    [.readExact [77, 77, 77], .streamPosition, .readToEnd fun i => i + 2, .readExact [77], .rewind,
        .read [77, 77], .seek (.end_ (-11))]
    (by
      intro op hop
      simp only [List.mem_cons, List.not_mem_nil, or_false] at hop
      rcases hop with rfl | rfl | rfl | rfl | rfl | rfl | rfl
      all_goals first | trivial | exact fun i => Nat.succ_pos _ | (show SeekFrom.InRange _; unfold SeekFrom.InRange; decide))
  rw [e]
  unfold Val.flat
  rw [hp, hl]
  decide

example (img : Bytes) (fs : Dev) (hd : fs.Ok img) := C69_is_empty (img := img) (c := [7])
  (v := .simple (.res ⟨[7], none, 0⟩)) rfl (by decide) (by decide) fs hd 5 (by decide) [.readExact [0], .rewind]
  (by intro op hop; simp only [List.mem_cons, List.not_mem_nil, or_false] at hop; rcases hop with rfl | rfl <;> trivial)
example (fs : Dev) : ((Val.simple (.res ⟨[7], none, 0⟩)).attach fs).isEmpty = false ∧
    ((Val.simple (.res ⟨[], none, 0⟩)).attach fs).isEmpty = true := ⟨rfl, rfl⟩

end NT
