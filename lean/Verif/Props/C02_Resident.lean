import Verif.Model.Resident
import Verif.Spec.FlatFile
import Verif.Lemmas.Seek
import Verif.Lemmas.Bytes

namespace NT

open Spec

/-- One user operation on a resident value. -/
def ResVal.step (v : ResVal) : Op → Out × ResVal
  | .read buf =>
    let (r, v', buf') := v.read buf
    ({ result := r, buf := buf' }, v')
  | .seek s =>
    let (r, v') := v.seek s
    ({ result := r, buf := [] }, v')

/-- A history of user operations on a resident value. -/
def ResVal.run (v : ResVal) : List Op → List Out × ResVal
  | [] => ([], v)
  | op :: ops =>
    let (o, v') := v.step op
    let (os, v'') := v'.run ops
    (o :: os, v'')

/-- The in-memory file that a resident value should behave like. -/
abbrev ResVal.flat (v : ResVal) : Flat :=
  { content := v.data, len := v.data.length, pos := v.streamPosition }

/-- What one `read` of a resident value does: it delivers the next bytes, never panics. -/
theorem ResVal.read_eq (v : ResVal) (buf : Bytes) :
    v.read buf =
      (.ok ((v.data.drop v.streamPosition).take buf.length).length,
        { v with streamPosition :=
            v.streamPosition + ((v.data.drop v.streamPosition).take buf.length).length },
        (v.data.drop v.streamPosition).take buf.length ++
          buf.drop ((v.data.drop v.streamPosition).take buf.length).length) := by
  unfold ResVal.read ResVal.remainingLen ResVal.len
  split
  · rename_i h
    have : v.data.drop v.streamPosition = [] := by rw [List.drop_eq_nil_iff]; omega
    simp [this]
  · rename_i h
    dsimp only
    rw [idxRange_ok (by omega) (by omega)]
    have e : v.streamPosition + min buf.length (v.data.length - v.streamPosition) -
        v.streamPosition = min buf.length (v.data.length - v.streamPosition) := by omega
    have e2 : List.take (min buf.length (v.data.length - v.streamPosition))
        (List.drop v.streamPosition v.data) =
        List.take buf.length (List.drop v.streamPosition v.data) := by
      rw [List.take_eq_take_iff]; simp
    simp only [e, e2, overwrite]
    simp

theorem ResVal.step_refines (v : ResVal) (op : Op) (hop : op.InRange)
    (hp : v.streamPosition < U64) (hd : v.data.length < U64) :
    (v.step op).1 = (v.flat.step op).1 ∧ (v.step op).2.flat = (v.flat.step op).2 ∧
      (v.step op).2.streamPosition < U64 ∧ (v.step op).2.data = v.data := by
  cases op with
  | read buf =>
    refine ⟨?_, ?_, ?_, ?_⟩
    · simp only [ResVal.step, ResVal.read_eq, Flat.step]
    · simp only [ResVal.step, ResVal.read_eq, Flat.step]
    · simp only [ResVal.step, ResVal.read_eq, List.length_take, List.length_drop]
      omega
    · simp only [ResVal.step, ResVal.read_eq]
  | seek s =>
    have h1 := seekContiguous_spec v.streamPosition v.data.length s hop hp hd
    have h2 := seekContiguous_lt (len := v.data.length) hop hp hd
    refine ⟨?_, ?_, h2, rfl⟩
    · simp only [ResVal.step, ResVal.seek, ResVal.len, Flat.step, ResVal.flat]
      rw [h1]
      by_cases h : validTarget (seekTarget v.streamPosition v.data.length s)
      · rw [if_pos h, if_pos h]
      · rw [if_neg h, if_neg h]
    · simp only [ResVal.step, ResVal.seek, ResVal.len, Flat.step, ResVal.flat]
      rw [h1]
      by_cases h : validTarget (seekTarget v.streamPosition v.data.length s)
      · rw [if_pos h, if_pos h]
      · rw [if_neg h, if_neg h]

/-- C02: every history of reads and seeks on a resident value gives exactly the results of the same
history on an in-memory file holding the value bytes. (`ResVal.read`/`ResVal.seek` do not take the
device at all, as the Rust functions ignore it.) In particular no operation panics and every read
succeeds. -/
theorem C02_flat_file (data : Bytes) (hd : data.length < U64) (p : Pos) (ops : List Op)
    (hops : ∀ op ∈ ops, op.InRange) :
    ((ResVal.new data p).run ops).1 =
      (Flat.run { content := data, len := data.length, pos := 0 } ops).1 := by
  suffices h : ∀ (v : ResVal), v.data = data → v.streamPosition < U64 →
      (v.run ops).1 = (v.flat.run ops).1 from h (ResVal.new data p) rfl (by simp [ResVal.new])
  induction ops with
  | nil => intros; rfl
  | cons op ops ih =>
    intro v hv hp
    obtain ⟨h1, h2, h3, h4⟩ := ResVal.step_refines v op (hops op (by simp)) hp (by rw [hv]; exact hd)
    have := ih (fun o ho => hops o (by simp [ho])) (v.step op).2 (by rw [h4, hv]) h3
    simp only [ResVal.run, Flat.run]
    rw [h1, this, h2]

/-- The position after any history is the position of the in-memory file. -/
theorem C02_position (data : Bytes) (hd : data.length < U64) (p : Pos) (ops : List Op)
    (hops : ∀ op ∈ ops, op.InRange) :
    ((ResVal.new data p).run ops).2.streamPosition =
      (Flat.run { content := data, len := data.length, pos := 0 } ops).2.pos := by
  suffices h : ∀ (v : ResVal), v.data = data → v.streamPosition < U64 →
      (v.run ops).2.streamPosition = (v.flat.run ops).2.pos from
    h (ResVal.new data p) rfl (by simp [ResVal.new])
  induction ops with
  | nil => intros; rfl
  | cons op ops ih =>
    intro v hv hp
    obtain ⟨h1, h2, h3, h4⟩ := ResVal.step_refines v op (hops op (by simp)) hp (by rw [hv]; exact hd)
    have := ih (fun o ho => hops o (by simp [ho])) (v.step op).2 (by rw [h4, hv]) h3
    simp only [ResVal.run, Flat.run]
    rw [this, h2]

/-- A concrete history: seek to 2, read 3 bytes into a 4-byte buffer, seek back, bad seek. -/
example : ((ResVal.new [10, 11, 12, 13, 14] (some 4096)).run
      [.seek (.start 2), .read [0, 0, 0, 99], .seek (.end_ (-5)), .seek (.current (-1))]).1 =
    [⟨.ok 2, []⟩, ⟨.ok 3, [12, 13, 14, 99]⟩, ⟨.ok 0, []⟩, ⟨.err (.io .invalidInput), []⟩] := by
  rw [C02_flat_file _ (by decide) _ _ (by decide)]
  decide

/-- The same history for `C02_position`. -/
example : ((ResVal.new [10, 11, 12, 13, 14] (some 4096)).run
      [.seek (.start 2), .read [0, 0, 0, 99], .seek (.current (-4))]).2.streamPosition = 1 :=
  (C02_position _ (by decide) _ _ (by decide)).trans (by decide)

end NT
