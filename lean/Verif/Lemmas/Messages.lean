import Verif.Model.Message

/-!
Messages can be taken apart again: the formatted arguments contain no delimiters, and formatted
numbers, positions and byte strings determine what they show.
-/

namespace NT

/-- The value of a decimal number. -/
def decValue (l : List Char) : Nat := l.foldl (fun n c => n * 10 + (c.toNat - 48)) 0

/-- The value of a hexadecimal number in lower case. -/
def hexValue (l : List Char) : Nat :=
  l.foldl (fun n c => n * 16 + (if c.toNat < 58 then c.toNat - 48 else c.toNat - 87)) 0

theorem char_toNat_ofNat {n : Nat} (h : n < 128) : (Char.ofNat n).toNat = n := by
  have hv : n.isValidChar := Or.inl (by omega)
  unfold Char.ofNat
  rw [dif_pos hv]
  simp only [Char.ofNatAux, Char.toNat, UInt32.toNat]
  rfl

theorem decValue_append (l : List Char) (c : Char) :
    decValue (l ++ [c]) = decValue l * 10 + (c.toNat - 48) := by
  simp [decValue, List.foldl_append]

theorem hexValue_append (l : List Char) (c : Char) :
    hexValue (l ++ [c]) =
      hexValue l * 16 + (if c.toNat < 58 then c.toNat - 48 else c.toNat - 87) := by
  simp [hexValue, List.foldl_append]

theorem decValue_dec (n : Nat) : decValue (dec n) = n := by
  induction n using Nat.strongRecOn with
  | _ n ih =>
    rw [dec]
    split
    · rename_i h
      simp only [decValue, List.foldl_cons, List.foldl_nil]
      rw [char_toNat_ofNat (by omega)]
      omega
    · rw [decValue_append, ih (n / 10) (by omega), char_toNat_ofNat (by omega)]
      omega

theorem lowerDigit_value {n : Nat} (h : n < 16) :
    (if (lowerDigit n).toNat < 58 then (lowerDigit n).toNat - 48 else (lowerDigit n).toNat - 87) =
      n := by
  unfold lowerDigit
  split
  · rw [char_toNat_ofNat (by omega), if_pos (by omega)]
    omega
  · rw [char_toNat_ofNat (by omega), if_neg (by omega)]
    omega

theorem hexValue_lowerHex (n : Nat) : hexValue (lowerHex n) = n := by
  induction n using Nat.strongRecOn with
  | _ n ih =>
    rw [lowerHex]
    split
    · rename_i h
      simp only [hexValue, List.foldl_cons, List.foldl_nil, Nat.zero_mul, Nat.zero_add]
      exact lowerDigit_value h
    · rw [hexValue_append, ih (n / 16) (by omega), lowerDigit_value (by omega)]
      omega

theorem hexValue_zeros (k : Nat) (l : List Char) :
    hexValue (List.replicate k '0' ++ l) = hexValue l := by
  induction k with
  | zero => rfl
  | succ k ih =>
    rw [List.replicate_succ, List.cons_append]
    rw [← ih]
    rfl

theorem dec_inj {m n : Nat} : dec m = dec n ↔ m = n :=
  ⟨fun h => by rw [← decValue_dec m, h, decValue_dec], fun h => by rw [h]⟩

theorem hexAlt_inj {w m n : Nat} : hexAlt w m = hexAlt w n ↔ m = n := by
  refine ⟨fun h => ?_, fun h => by rw [h]⟩
  simp only [hexAlt, List.cons.injEq, true_and] at h
  have h' := congrArg hexValue h
  simpa only [hexValue_zeros, hexValue_lowerHex] using h'

theorem posHex_inj {p q : Pos} : posHex p = posHex q ↔ p = q := by
  refine ⟨fun h => ?_, fun h => by rw [h]⟩
  cases p with
  | none =>
    cases q with
    | none => rfl
    | some n =>
      have h1 : "<NONE>".toList = hexAlt 0 n := h
      have h2 := congrArg List.head? h1
      exact absurd h2 (by simp [hexAlt])
  | some m =>
    cases q with
    | none =>
      have h1 : hexAlt 0 m = "<NONE>".toList := h
      have h2 := congrArg List.head? h1
      exact absurd h2 (by simp [hexAlt])
    | some n => rw [hexAlt_inj.1 h]

theorem dec_digit (n : Nat) {c : Char} (h : c ∈ dec n) : 48 ≤ c.toNat ∧ c.toNat < 58 := by
  induction n using Nat.strongRecOn generalizing c with
  | _ n ih =>
    rw [dec] at h
    split at h
    · rw [List.mem_singleton] at h
      rw [h, char_toNat_ofNat (by omega)]
      omega
    · rw [List.mem_append, List.mem_singleton] at h
      rcases h with h | h
      · exact ih (n / 10) (by omega) h
      · rw [h, char_toNat_ofNat (by omega)]
        omega

theorem dec_ne_nil (n : Nat) : dec n ≠ [] := by
  rw [dec]
  split
  · exact List.cons_ne_nil _ _
  · simp

theorem lowerHex_digit (n : Nat) {c : Char} (h : c ∈ lowerHex n) :
    (48 ≤ c.toNat ∧ c.toNat < 58) ∨ (97 ≤ c.toNat ∧ c.toNat < 103) := by
  have hd : ∀ k, k < 16 → (48 ≤ (lowerDigit k).toNat ∧ (lowerDigit k).toNat < 58) ∨
      (97 ≤ (lowerDigit k).toNat ∧ (lowerDigit k).toNat < 103) := by
    intro k hk
    unfold lowerDigit
    split
    · rw [char_toNat_ofNat (by omega)]; omega
    · rw [char_toNat_ofNat (by omega)]; omega
  induction n using Nat.strongRecOn generalizing c with
  | _ n ih =>
    rw [lowerHex] at h
    split at h
    · rename_i hn
      rw [List.mem_singleton] at h
      rw [h]
      exact hd n hn
    · rw [List.mem_append, List.mem_singleton] at h
      rcases h with h | h
      · exact ih (n / 16) (by omega) h
      · rw [h]
        exact hd _ (by omega)

theorem lowerHex_ne_nil (n : Nat) : lowerHex n ≠ [] := by
  rw [lowerHex]
  split
  · exact List.cons_ne_nil _ _
  · simp

/-- The characters that end an argument in the messages. -/
def delims : List Char := [' ', ',', '.', ']']

/-- An argument without delimiters. -/
def Clean (a : List Char) : Prop := ∀ c ∈ a, c ∉ delims

theorem clean_dec (n : Nat) : Clean (dec n) := by
  intro c hc hd
  have h := dec_digit n hc
  simp only [delims, List.mem_cons, List.not_mem_nil, or_false] at hd
  rcases hd with rfl | rfl | rfl | rfl <;> revert h <;> decide

theorem clean_decInt (i : Int) : Clean (decInt i) := by
  unfold decInt
  split
  · intro c hc
    rw [List.mem_cons] at hc
    rcases hc with rfl | hc
    · decide
    · exact clean_dec _ c hc
  · exact clean_dec _

theorem clean_hexAlt (w n : Nat) : Clean (hexAlt w n) := by
  intro c hc hd
  unfold hexAlt at hc
  rw [List.mem_cons, List.mem_cons, List.mem_append] at hc
  rcases hc with rfl | rfl | hc | hc
  · revert hd; decide
  · revert hd; decide
  · rw [(List.mem_replicate.1 hc).2] at hd
    revert hd; decide
  · have h := lowerHex_digit n hc
    simp only [delims, List.mem_cons, List.not_mem_nil, or_false] at hd
    rcases hd with rfl | rfl | rfl | rfl <;> revert h <;> decide

theorem clean_posHex (p : Pos) : Clean (posHex p) := by
  cases p with
  | none => unfold Clean posHex; decide
  | some n => exact clean_hexAlt 0 n

theorem clean_debug (t : AttrType) : Clean t.debug := by
  cases t <;> (unfold Clean AttrType.debug; decide)

theorem debug_inj {s t : AttrType} : s.debug = t.debug ↔ s = t := by
  cases s <;> cases t <;> decide

theorem decInt_inj {i j : Int} : decInt i = decInt j ↔ i = j := by
  refine ⟨fun h => ?_, fun h => by rw [h]⟩
  have hm : ∀ n l, dec n ≠ '-' :: l := by
    intro n l hn
    have := dec_digit n (c := '-') (by rw [hn]; exact List.mem_cons_self)
    revert this; decide
  unfold decInt at h
  split at h
  · split at h
    · rw [List.cons.injEq, dec_inj] at h
      omega
    · exact absurd h.symm (hm _ _)
  · split at h
    · exact absurd h (hm _ _)
    · rw [dec_inj] at h
      omega

/-- Two texts without a character that end at this character are the same. -/
theorem split_at {c : Char} : ∀ {a b x y : List Char}, c ∉ a → c ∉ b →
    a ++ c :: x = b ++ c :: y → a = b ∧ x = y
  | [], [], x, y, _, _, h => ⟨rfl, (List.cons.inj h).2⟩
  | [], d :: b, x, y, _, hb, h => by
    rw [List.nil_append, List.cons_append, List.cons.injEq] at h
    exact absurd (h.1 ▸ List.mem_cons_self) hb
  | d :: a, [], x, y, ha, _, h => by
    rw [List.nil_append, List.cons_append, List.cons.injEq] at h
    exact absurd (h.1 ▸ List.mem_cons_self) ha
  | d :: a, e :: b, x, y, ha, hb, h => by
    rw [List.cons_append, List.cons_append, List.cons.injEq] at h
    have := split_at (fun hm => ha (List.mem_cons_of_mem _ hm))
      (fun hm => hb (List.mem_cons_of_mem _ hm)) h.2
    exact ⟨by rw [h.1, this.1], this.2⟩

theorem Clean.not_mem {a : List Char} (h : Clean a) {c : Char} (hc : c ∈ delims) : c ∉ a :=
  fun hm => h c hm hc

theorem bracket_not_mem_decItems : ∀ b : Bytes, ']' ∉ decItems b
  | [] => List.not_mem_nil
  | [b] => by
    rw [decItems]
    exact (clean_dec _).not_mem (by decide)
  | b :: c :: r => by
    rw [decItems, List.mem_append, List.mem_cons, List.mem_cons]
    rintro (h | h | h | h)
    · exact (clean_dec _).not_mem (by decide) h
    · revert h; decide
    · revert h; decide
    · exact bracket_not_mem_decItems (c :: r) h

theorem comma_mem_decItems (b c : UInt8) (r : Bytes) : ',' ∈ decItems (b :: c :: r) := by
  rw [decItems, List.mem_append]
  exact Or.inr List.mem_cons_self

theorem decItems_inj : ∀ {b c : Bytes}, decItems b = decItems c → b = c
  | [], [], _ => rfl
  | [], [c], h => absurd h.symm (dec_ne_nil _)
  | [], c :: c' :: r, h => absurd h.symm (List.ne_nil_of_mem (comma_mem_decItems c c' r))
  | [b], [], h => absurd h (dec_ne_nil _)
  | b :: b' :: q, [], h => absurd h (List.ne_nil_of_mem (comma_mem_decItems b b' q))
  | [b], [c], h => by
    rw [decItems, decItems, dec_inj] at h
    rw [UInt8.toNat_inj.1 h]
  | [b], c :: c' :: r, h => by
    have := comma_mem_decItems c c' r
    rw [← h, decItems] at this
    exact absurd this ((clean_dec _).not_mem (by decide))
  | b :: b' :: q, [c], h => by
    have := comma_mem_decItems b b' q
    rw [h, decItems] at this
    exact absurd this ((clean_dec _).not_mem (by decide))
  | b :: b' :: q, c :: c' :: r, h => by
    rw [decItems, decItems] at h
    have h1 := split_at ((clean_dec _).not_mem (by decide)) ((clean_dec _).not_mem (by decide)) h
    rw [dec_inj, List.cons.injEq] at h1
    rw [UInt8.toNat_inj.1 h1.1, decItems_inj h1.2.2]

theorem decItems_inj_iff {b c : Bytes} : decItems b = decItems c ↔ b = c :=
  ⟨decItems_inj, fun h => by rw [h]⟩

/-- Every argument is the last piece or ends at the first character of the text after it. -/
def Separated : List Piece → Prop
  | [] => True
  | .text _ :: r => Separated r
  | [.arg _] => True
  | .arg _ :: .arg _ :: _ => False
  | .arg a :: .text s :: r => (∃ c t, s.toList = c :: t ∧ c ∉ a) ∧ Separated r

/-- The texts and the places of the arguments. -/
def frame : List Piece → List (Option String)
  | [] => []
  | .text s :: r => some s :: frame r
  | .arg _ :: r => none :: frame r

theorem render_inj : ∀ {p q : List Piece}, Separated p → Separated q → frame p = frame q →
    render p = render q → p = q
  | [], [], _, _, _, _ => rfl
  | [], .text _ :: _, _, _, h, _ => by cases h
  | [], .arg _ :: _, _, _, h, _ => by cases h
  | .text _ :: _, [], _, _, h, _ => by cases h
  | .arg _ :: _, [], _, _, h, _ => by cases h
  | .text _ :: _, .arg _ :: _, _, _, h, _ => by cases h
  | .arg _ :: _, .text _ :: _, _, _, h, _ => by cases h
  | .text s :: p, .text t :: q, hp, hq, h, hr => by
    simp only [frame, List.cons.injEq, Option.some.injEq] at h
    obtain ⟨rfl, h⟩ := h
    rw [render_inj (p := p) (q := q) hp hq h (List.append_cancel_left hr)]
  | [.arg a], [.arg b], _, _, _, hr => by
    simp only [render, List.append_nil] at hr
    rw [hr]
  | [.arg _], .arg _ :: .text _ :: _, _, _, h, _ => by cases h
  | .arg _ :: .text _ :: _, [.arg _], _, _, h, _ => by cases h
  | .arg _ :: .arg _ :: _, _, hp, _, _, _ => hp.elim
  | _, .arg _ :: .arg _ :: _, _, hq, _, _ => hq.elim
  | .arg a :: .text s :: p, .arg b :: .text t :: q, hp, hq, h, hr => by
    simp only [frame, List.cons.injEq, Option.some.injEq, true_and] at h
    obtain ⟨rfl, h⟩ := h
    obtain ⟨⟨c, l, hs, hc⟩, hp⟩ := hp
    obtain ⟨⟨c', l', hs', hc'⟩, hq⟩ := hq
    rw [hs, List.cons.injEq] at hs'
    obtain ⟨rfl, rfl⟩ := hs'
    simp only [render, hs, List.cons_append] at hr
    obtain ⟨he, hr2⟩ := split_at hc hc' hr
    rw [he, render_inj hp hq h (List.append_cancel_left hr2)]

/-- Two frames with different texts at the first place where they differ. -/
def clash : List (Option String) → List (Option String) → Bool
  | some s :: f, some t :: g =>
      if s = t then clash f g
      else !(s.toList.isPrefixOf t.toList) && !(t.toList.isPrefixOf s.toList)
  | none :: some s :: f, none :: some t :: g =>
      s.toList.head? == t.toList.head? &&
        (if s = t then clash f g
         else !(s.toList.isPrefixOf t.toList) && !(t.toList.isPrefixOf s.toList))
  | _, _ => false

theorem prefix_of_append : ∀ {a b x y : List Char}, a ++ x = b ++ y → a <+: b ∨ b <+: a
  | [], b, _, _, _ => Or.inl (List.nil_prefix)
  | a, [], _, _, _ => Or.inr (List.nil_prefix)
  | c :: a, d :: b, x, y, h => by
    rw [List.cons_append, List.cons_append, List.cons.injEq] at h
    obtain ⟨rfl, h⟩ := h
    rcases prefix_of_append h with hp | hp
    · exact Or.inl (List.cons_prefix_cons.2 ⟨rfl, hp⟩)
    · exact Or.inr (List.cons_prefix_cons.2 ⟨rfl, hp⟩)

theorem no_prefix {s t : String} {x y : List Char}
    (h : (!(s.toList.isPrefixOf t.toList) && !(t.toList.isPrefixOf s.toList)) = true) :
    s.toList ++ x ≠ t.toList ++ y := by
  intro he
  rw [Bool.and_eq_true, Bool.not_eq_true', Bool.not_eq_true', ← Bool.not_eq_true,
    ← Bool.not_eq_true, List.isPrefixOf_iff_prefix, List.isPrefixOf_iff_prefix] at h
  rcases prefix_of_append he with hp | hp
  · exact h.1 hp
  · exact h.2 hp

theorem render_ne : ∀ {p q : List Piece}, Separated p → Separated q →
    clash (frame p) (frame q) = true → render p ≠ render q
  | [], _, _, _, h => by simp [frame, clash] at h
  | .text _ :: _, [], _, _, h => by simp [frame, clash] at h
  | .text _ :: _, .arg _ :: _, _, _, h => by simp [frame, clash] at h
  | .arg _ :: _, [], _, _, h => by simp [frame, clash] at h
  | .arg _ :: _, .text _ :: _, _, _, h => by simp [frame, clash] at h
  | .text s :: p, .text t :: q, hp, hq, h => by
    simp only [frame, clash] at h
    simp only [render]
    split at h
    · rename_i he
      subst he
      intro hr
      exact render_ne (p := p) (q := q) hp hq h (List.append_cancel_left hr)
    · exact no_prefix h
  | [.arg _], _, _, _, h => by simp [frame, clash] at h
  | .arg _ :: .arg _ :: _, _, hp, _, _ => hp.elim
  | .arg _ :: .text _ :: _, [.arg _], _, _, h => by simp [frame, clash] at h
  | .arg _ :: .text _ :: _, .arg _ :: .arg _ :: _, _, hq, _ => hq.elim
  | .arg a :: .text s :: p, .arg b :: .text t :: q, hp, hq, h => by
    obtain ⟨⟨c, l, hs, hc⟩, hp⟩ := hp
    obtain ⟨⟨c', l', ht, hc'⟩, hq⟩ := hq
    simp only [frame, clash, Bool.and_eq_true, beq_iff_eq] at h
    obtain ⟨hh, h⟩ := h
    rw [hs, ht, List.head?_cons, List.head?_cons, Option.some.injEq] at hh
    subst hh
    intro hr
    have hr' : a ++ c :: (l ++ render p) = b ++ c :: (l' ++ render q) := by
      simpa only [render, hs, ht, List.cons_append] using hr
    obtain ⟨_, hr'⟩ := split_at hc hc' hr'
    split at h
    · rename_i he
      subst he
      rw [hs, List.cons.injEq] at ht
      obtain ⟨-, rfl⟩ := ht
      exact render_ne hp hq h (List.append_cancel_left hr')
    · refine no_prefix h (x := render p) (y := render q) ?_
      rw [hs, ht, List.cons_append, List.cons_append, hr']

/-- One error of every variant. -/
def Err.samples : List Err :=
  [.attributeNotFound none .data, .attributeOfDifferentType none .data .data,
   .invalidAttributeLength none 0 0, .invalidAttributeNameLength none 0 0,
   .invalidAttributeNameOffset none 0 0, .invalidByteCountInDataRunHeader none 0 0,
   .invalidClusterCountInDataRunHeader none 0, .invalidFileAllocatedSize none 0 0,
   .invalidFileRecordNumber 0, .invalidFileSignature none [], .invalidFileUsedSize none 0 0,
   .invalidIndexAllocatedSize none 0 0, .invalidIndexEntryDataRange none 0 0 0,
   .invalidIndexEntrySize none 0 0, .invalidIndexRootEntriesOffset none 0 0,
   .invalidIndexRootUsedSize none 0 0, .invalidIndexSignature none [],
   .invalidIndexUsedSize none 0 0, .invalidMftLcn,
   .invalidNonResidentValueDataRange none 0 0 0,
   .invalidResidentAttributeValueLength none 0 0 0,
   .invalidResidentAttributeValueOffset none 0 0, .invalidRecordSizeInfo 0 0,
   .invalidSectorsPerCluster 0, .invalidStructuredValueSize none .data 0 0, .invalidTime,
   .invalidTwoByteSignature [], .invalidUpcaseTableSize 0 0,
   .invalidUpdateSequenceCount none 0, .invalidUpdateSequenceNumberRange none 0 0 0,
   .invalidVcnInDataRunHeader none 0 0, .io .interrupted, .lcnTooBig 0,
   .missingIndexAllocation none, .notADirectory none, .totalSectorsTooBig 0,
   .unexpectedAttributeListAttribute none, .unexpectedNonResidentAttribute none,
   .unexpectedResidentAttribute none, .unsupportedAttributeType none 0,
   .unsupportedClusterSize 0 0 0, .unsupportedFileNamespace none 0,
   .unsupportedSectorSize 0 0 0, .updateSequenceArrayExceedsRecordSize none 0 0,
   .updateSequenceNumberMismatch none [] [], .vcnMismatchInIndexAllocation none 0 0,
   .vcnOutOfBoundsInIndexAllocation none 0, .vcnTooBig 0]

theorem Err.frame_sample (dbg : IoErr → List Char) (e : Err) :
    ∃ s, Err.samples[e.ctorIdx]? = some s ∧
      frame (e.pieces dbg) = frame (s.pieces (fun _ => [])) := by
  cases e <;> exact ⟨_, rfl, rfl⟩

set_option maxRecDepth 20000 in
theorem Err.samples_clash : ∀ i j : Fin 48, i ≠ j → ∀ s t, Err.samples[i.1]? = some s →
    Err.samples[j.1]? = some t →
    clash (frame (s.pieces (fun _ => []))) (frame (t.pieces (fun _ => []))) = true := by
  have h : ∀ i j : Fin 48, i ≠ j →
      (match Err.samples[i.1]?, Err.samples[j.1]? with
       | some s, some t => clash (frame (s.pieces (fun _ => []))) (frame (t.pieces (fun _ => [])))
       | _, _ => true) = true := by
    decide +kernel
  intro i j hij s t hs ht
  have := h i j hij
  rw [hs, ht] at this
  exact this


theorem clean_sep {s : String} {a : List Char} (ha : Clean a)
    (hs : ∃ c t, s.toList = c :: t ∧ c ∈ delims) : ∃ c t, s.toList = c :: t ∧ c ∉ a := by
  obtain ⟨c, t, h, hc⟩ := hs
  exact ⟨c, t, h, ha.not_mem hc⟩

theorem Err.pieces_separated (dbg : IoErr → List Char) (e : Err) : Separated (e.pieces dbg) := by
  cases e <;> simp only [Err.pieces, bytesPieces, rangePieces, List.cons_append, List.nil_append,
    Separated, and_true] <;>
    repeat' apply And.intro
  all_goals first
    | exact clean_sep (clean_posHex _) ⟨_, _, rfl, by decide⟩
    | exact clean_sep (clean_dec _) ⟨_, _, rfl, by decide⟩
    | exact clean_sep (clean_debug _) ⟨_, _, rfl, by decide⟩
    | exact clean_sep (clean_decInt _) ⟨_, _, rfl, by decide⟩
    | exact clean_sep (clean_hexAlt _ _) ⟨_, _, rfl, by decide⟩
    | exact ⟨_, _, rfl, bracket_not_mem_decItems _⟩

theorem Err.pieces_inj {dbg : IoErr → List Char} (hd : ∀ a b, dbg a = dbg b → a = b) {e e' : Err}
    (hi : e.ctorIdx = e'.ctorIdx) (he : e.ctorIdx ≠ 35) (h : e.pieces dbg = e'.pieces dbg) :
    e = e' := by
  have hd' : ∀ a b, dbg a = dbg b ↔ a = b := fun a b => ⟨hd a b, fun h => by rw [h]⟩
  cases e <;> cases e' <;> first
    | (exfalso; revert hi; clear h he hd hd'; simp only [Err.ctorIdx]; decide; done)
    | (clear hi
       simp only [Err.pieces, bytesPieces, rangePieces, List.cons_append, List.nil_append,
        List.cons.injEq, Piece.arg.injEq, dec_inj, decInt_inj, hexAlt_inj, posHex_inj, debug_inj,
        decItems_inj_iff, hd', true_and, and_true] at h
       first
        | rfl
        | exact absurd rfl he
        | simp only [h]
        | (simp only [Err.invalidIndexEntryDataRange.injEq] ; simp only [h, and_self]))
end NT
