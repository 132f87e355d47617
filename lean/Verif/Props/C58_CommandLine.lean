import Verif.Lemmas.ShellGet
import Verif.Model.Shell

/-! C58: how the example shell reads a line: the command, its argument, the name of a stream, a record
number, and names in UTF-16. -/

namespace NT

namespace Spec

/-- The white space characters of Unicode. -/
def isSpace (c : Char) : Bool :=
  [0x9, 0xA, 0xB, 0xC, 0xD, 0x20, 0x85, 0xA0, 0x1680, 0x2000, 0x2001, 0x2002, 0x2003, 0x2004, 0x2005, 0x2006,
    0x2007, 0x2008, 0x2009, 0x200A, 0x2028, 0x2029, 0x202F, 0x205F, 0x3000].contains c.toNat

/-- Only white space. -/
def Blank (s : List Char) : Prop := ∀ c ∈ s, isSpace c = true

/-- Neither starts nor ends with white space. -/
def Tight (s : List Char) : Prop :=
  (∀ c, s.head? = some c → isSpace c = false) ∧ ∀ c, s.getLast? = some c → isSpace c = false

/-- The digits `0`-`9`, `a`-`z`, `A`-`Z` and their values, as far as they are below the radix. -/
def IsDigit (radix : Nat) (c : Char) (x : Nat) : Prop :=
  x < radix ∧ ((c.toNat = 48 + x ∧ x < 10) ∨ (10 ≤ x ∧ (c.toNat = 87 + x ∨ c.toNat = 55 + x)))

/-- `s` consists of digits, and `n` is the number they stand for. -/
inductive Numeral (radix : Nat) : List Char → Nat → Prop
  | nil : Numeral radix [] 0
  | snoc {s : List Char} {n : Nat} {c : Char} {x : Nat} :
      Numeral radix s n → IsDigit radix c x → Numeral radix (s ++ [c]) (n * radix + x)

end Spec

open Spec

theorem isWhitespace_eq : isWhitespace = isSpace := by
  funext c
  unfold isWhitespace isSpace
  generalize c.toNat = n
  rw [Bool.eq_iff_iff]
  simp only [Bool.or_eq_true, Bool.and_eq_true, decide_eq_true_eq, beq_iff_eq, List.contains_cons, List.contains_nil,
    Bool.false_eq_true, or_false]
  omega

theorem trimStart_eq (s : List Char) : trimStart s = s.dropWhile isSpace := by
  unfold trimStart
  rw [isWhitespace_eq]

theorem dropWhile_append_of_all {α : Type} (p : α → Bool) (a b : List α) (h : ∀ x ∈ a, p x = true) :
    (a ++ b).dropWhile p = b.dropWhile p := by
  induction a with
  | nil => rfl
  | cons x a ih =>
    rw [List.cons_append, List.dropWhile_cons_of_pos (h x List.mem_cons_self)]
    exact ih fun y hy => h y (List.mem_cons_of_mem _ hy)

theorem dropWhile_eq_self {α : Type} (p : α → Bool) (a : List α) (h : ∀ x, a.head? = some x → p x = false) :
    a.dropWhile p = a := by
  cases a with
  | nil => rfl
  | cons x a => rw [List.dropWhile_cons_of_neg (by rw [h x rfl]; exact Bool.false_ne_true)]

theorem trimStart_blank {a b : List Char} (ha : Blank a) : trimStart (a ++ b) = trimStart b := by
  rw [trimStart_eq, trimStart_eq]
  exact dropWhile_append_of_all _ _ _ ha

theorem trim_pad {a b c : List Char} (ha : Blank a) (hb : Tight b) (hc : Blank c) : trim (a ++ b ++ c) = b := by
  unfold trim
  rw [List.append_assoc, trimStart_blank ha]
  cases b with
  | nil =>
    rw [List.nil_append]
    have : trimStart c = [] := by
      have := trimStart_blank (b := []) hc
      rw [List.append_nil] at this
      rw [this]; rfl
    rw [this]; rfl
  | cons x b =>
    have h1 : trimStart (x :: b ++ c) = x :: b ++ c := by
      rw [trimStart_eq]
      exact dropWhile_eq_self _ _ fun y hy => by
        injection hy with hy; subst hy; exact hb.1 x rfl
    rw [h1, List.reverse_append, trimStart_blank (fun y hy => hc y (List.mem_reverse.1 hy))]
    rw [trimStart_eq, dropWhile_eq_self _ _ (by intro y hy; rw [List.head?_reverse] at hy; exact hb.2 y hy),
      List.reverse_reverse]

theorem takeWhile_stop {a b : List Char} {x : Char} (h : x ∉ a) :
    (a ++ x :: b).takeWhile (· ≠ x) = a ∧ (a ++ x :: b).dropWhile (· ≠ x) = x :: b := by
  induction a with
  | nil =>
    constructor
    · exact List.takeWhile_cons_of_neg (by simp)
    · exact List.dropWhile_cons_of_neg (by simp)
  | cons y a ih =>
    have hy : y ≠ x := fun e => h (e ▸ List.mem_cons_self)
    have ih := ih fun hx => h (List.mem_cons_of_mem _ hx)
    constructor
    · rw [List.cons_append, List.takeWhile_cons_of_pos (by simpa using hy), ih.1]
    · rw [List.cons_append, List.dropWhile_cons_of_pos (by simpa using hy), ih.2]

theorem takeWhile_all {a : List Char} {x : Char} (h : x ∉ a) :
    a.takeWhile (· ≠ x) = a ∧ a.dropWhile (· ≠ x) = [] := by
  induction a with
  | nil => exact ⟨rfl, rfl⟩
  | cons y a ih =>
    have hy : y ≠ x := fun e => h (e ▸ List.mem_cons_self)
    have ih := ih fun hx => h (List.mem_cons_of_mem _ hx)
    constructor
    · rw [List.takeWhile_cons_of_pos (by simpa using hy), ih.1]
    · rw [List.dropWhile_cons_of_pos (by simpa using hy), ih.2]

theorem tight_join {cmd arg gap : List Char} (h1 : Tight cmd) (hne : cmd ≠ []) (h2 : Tight arg)
    (hna : arg ≠ []) : Tight (cmd ++ ' ' :: (gap ++ arg)) := by
  constructor
  · intro c hc
    cases cmd with
    | nil => exact absurd rfl hne
    | cons y cmd => exact h1.1 c hc
  · intro c hc
    apply h2.2 c
    rw [← hc, ← List.cons_append, ← List.append_assoc, List.getLast?_append]
    cases hl : arg.getLast? with
    | none => exact absurd (List.getLast?_eq_none_iff.1 hl) hna
    | some z => rfl

/-- **C58**, a command with an argument: however much white space there is around and (after the first
blank) between them, both come out; the argument may contain blanks itself. -/
theorem C58_command {before gap after cmd arg : List Char} (hb : Blank before) (hg : Blank gap)
    (ha : Blank after) (h1 : Tight cmd) (hne : cmd ≠ []) (hs : ' ' ∉ cmd) (h2 : Tight arg) (hna : arg ≠ []) :
    splitCommand (before ++ (cmd ++ ' ' :: (gap ++ arg)) ++ after) = (cmd, arg) := by
  unfold splitCommand
  rw [trim_pad hb (tight_join h1 hne h2 hna) ha]
  dsimp only
  rw [(takeWhile_stop hs).1, (takeWhile_stop hs).2]
  have : trimStart (' ' :: (gap ++ arg)) = arg := by
    have hbl : Blank (' ' :: gap) := by
      intro c hc
      rcases List.mem_cons.1 hc with rfl | hc
      · decide
      · exact hg c hc
    rw [← List.cons_append, trimStart_blank hbl, trimStart_eq]
    exact dropWhile_eq_self _ _ h2.1
  rw [this]

/-- **C58**, a command without an argument (the empty command included). -/
theorem C58_command_alone {before after cmd : List Char} (hb : Blank before) (ha : Blank after)
    (h1 : Tight cmd) (hs : ' ' ∉ cmd) : splitCommand (before ++ cmd ++ after) = (cmd, []) := by
  unfold splitCommand
  rw [trim_pad hb h1 ha]
  dsimp only
  rw [(takeWhile_all hs).1, (takeWhile_all hs).2]
  rfl

example : splitCommand "  cd \t my  folder \n".toList = ("cd".toList, "my  folder".toList) := by decide
example : Tight "cd".toList ∧ ' ' ∉ "cd".toList ∧ Tight "my  folder".toList ∧ Blank "\t ".toList := by
  refine ⟨⟨?_, ?_⟩, by decide, ⟨?_, ?_⟩, by unfold Blank; decide⟩ <;>
    (intro c hc; have := Option.some.inj hc; subst this; decide)

/-- Only a blank ends the command, a tab does not. -/
example : splitCommand "cd\tdir".toList = ("cd\tdir".toList, []) := by decide

/-- **C58**, the stream: the file name ends at the first colon, everything after it names the stream. -/
theorem C58_stream (file stream : List Char) (h : ':' ∉ file) :
    splitStream (file ++ ':' :: stream) = (file, stream) ∧ splitStream file = (file, []) := by
  unfold splitStream
  rw [(takeWhile_stop h).1, (takeWhile_stop h).2, (takeWhile_all h).1, (takeWhile_all h).2]
  exact ⟨rfl, rfl⟩

example : ':' ∉ "a.txt".toList ∧ splitStream "a.txt:b:c".toList = ("a.txt".toList, "b:c".toList) := by decide

/-- **C58**, the output of `get`: whatever the device does, a file that is written did not exist, and its
name is the name of the file, followed by an underscore and the name of the stream if one is given. If such
a file exists, nothing is written and that is reported. -/
theorem C58_output (s : Shell) (file stream : List Char) (h : ':' ∉ file) (exists' : List Char → Bool)
    (fuel : Nat) (d : Dev) :
    (exists' file = false → ∃ b, (s.get file exists' fuel d).2.1 = some (file, b)) ∧
    (exists' file = true → s.get file exists' fuel d = (.ok (.error (.outputExists file)), none, d)) ∧
    (stream ≠ [] → exists' (file ++ '_' :: stream) = false →
      ∃ b, (s.get (file ++ ':' :: stream) exists' fuel d).2.1 = some (file ++ '_' :: stream, b)) ∧
    (stream ≠ [] → exists' (file ++ '_' :: stream) = true →
      s.get (file ++ ':' :: stream) exists' fuel d =
        (.ok (.error (.outputExists (file ++ '_' :: stream))), none, d)) := by
  have key : ∀ arg f st out, splitStream arg = (f, st) → outputName f st = out →
      (exists' out = false → ∃ b, (s.get arg exists' fuel d).2.1 = some (out, b)) ∧
      (exists' out = true → s.get arg exists' fuel d = (.ok (.error (.outputExists out)), none, d)) := by
    intro arg f st out e1 e2
    rw [Shell.get_eq]
    rw [e1]
    dsimp only
    rw [e2]
    constructor
    · intro hx
      rw [hx, if_neg (by decide)]
      generalize s.openData f st fuel d = q
      obtain ⟨x, d1⟩ := q
      cases x with
      | ok o =>
        cases o with
        | error m => exact ⟨_, rfl⟩
        | ok v =>
          dsimp only
          generalize copyLoop Val.readFn fuel (v, d1) (List.replicate 4096 0) [] = q
          obtain ⟨x, ⟨w, d2⟩, b⟩ := q
          cases x <;> exact ⟨_, rfl⟩
      | err e => exact ⟨_, rfl⟩
      | panic e => exact ⟨_, rfl⟩
      | diverge => exact ⟨_, rfl⟩
    · intro hx
      rw [hx, if_pos rfl]
  obtain ⟨e1, e2⟩ := C58_stream file stream h
  obtain ⟨k1, k2⟩ := key file file [] file e2 rfl
  refine ⟨k1, k2, fun hne => ?_, fun hne => ?_⟩
  · exact (key _ _ _ (file ++ '_' :: stream) e1 (by unfold outputName; rw [if_neg hne, List.append_assoc]; rfl)).1
  · exact (key _ _ _ (file ++ '_' :: stream) e1 (by unfold outputName; rw [if_neg hne, List.append_assoc]; rfl)).2

/-- So the stream `b` of the file `a` and the file `a_b` are written to the same name, and the second `get`
is refused. -/
example : ':' ∉ "a".toList ∧ outputName "a".toList "b".toList = outputName "a_b".toList [] := by decide

theorem toDigit_iff {radix : Nat} (hr : radix ≤ 36) (c : Char) (x : Nat) :
    toDigit radix c = some x ↔ IsDigit radix c x := by
  unfold toDigit IsDigit
  dsimp only
  generalize c.toNat = n
  split
  · rw [Option.filter_eq_some_iff]
    simp only [Option.some.injEq, decide_eq_true_eq]
    omega
  · split
    · rw [Option.filter_eq_some_iff]
      simp only [Option.some.injEq, decide_eq_true_eq]
      omega
    · split
      · rw [Option.filter_eq_some_iff]
        simp only [Option.some.injEq, decide_eq_true_eq]
        omega
      · constructor
        · intro h; cases h
        · omega

theorem parseDigits_snoc (radix : Nat) (s : List Char) (c : Char) (acc : Nat) :
    parseDigits radix acc (s ++ [c]) =
      match parseDigits radix acc s with
      | none => none
      | some m => match toDigit radix c with
        | none => none
        | some x => if m * radix + x < U64 then some (m * radix + x) else none := by
  induction s generalizing acc with
  | nil =>
    simp only [List.nil_append, parseDigits]
    cases toDigit radix c <;> rfl
  | cons y s ih =>
    rw [List.cons_append]
    simp only [parseDigits]
    cases toDigit radix y with
    | none => rfl
    | some x =>
      dsimp only
      by_cases h : acc * radix + x < U64
      · rw [if_pos h, if_pos h, ih]
      · rw [if_neg h, if_neg h]

theorem parseDigits_iff {radix : Nat} (h0 : 0 < radix) (hr : radix ≤ 36) (s : List Char) (n : Nat) :
    parseDigits radix 0 s = some n ↔ Numeral radix s n ∧ n < U64 := by
  constructor
  · intro h
    induction hl : s.length generalizing s n with
    | zero =>
      have := List.eq_nil_of_length_eq_zero hl
      subst this
      simp only [parseDigits, Option.some.injEq] at h
      subst h
      exact ⟨.nil, by decide⟩
    | succ k ih =>
      have hne : s ≠ [] := by intro e; rw [e] at hl; cases hl
      obtain ⟨t, c, rfl⟩ : ∃ t c, s = t ++ [c] := ⟨_, _, (List.dropLast_concat_getLast hne).symm⟩
      rw [parseDigits_snoc] at h
      cases hp : parseDigits radix 0 t with
      | none => rw [hp] at h; cases h
      | some m =>
        rw [hp] at h
        dsimp only at h
        cases hd : toDigit radix c with
        | none => rw [hd] at h; cases h
        | some x =>
          rw [hd] at h
          dsimp only at h
          by_cases hu : m * radix + x < U64
          · rw [if_pos hu] at h
            injection h with h; subst h
            have := ih t m hp (by simpa using hl)
            exact ⟨.snoc this.1 ((toDigit_iff hr c x).1 hd), hu⟩
          · rw [if_neg hu] at h; cases h
  · rintro ⟨h, hu⟩
    induction h with
    | nil => rfl
    | @snoc s n c x _ hd ih =>
      have hle : n ≤ n * radix := Nat.le_mul_of_pos_right _ h0
      rw [parseDigits_snoc, ih (by omega)]
      dsimp only
      rw [(toDigit_iff hr c x).2 hd]
      dsimp only
      rw [if_pos hu]

theorem fromStrRadix_iff {radix : Nat} (h0 : 0 < radix) (hr : radix ≤ 36) (s : List Char) (n : Nat) :
    fromStrRadix radix s = some n ↔
      ∃ t, t ≠ [] ∧ (s = t ∨ s = '+' :: t) ∧ Numeral radix t n ∧ n < U64 := by
  have noPlus : ∀ t m, ¬ Numeral radix ('+' :: t) m ∨ U64 ≤ m := by
    intro t m
    by_cases hm : m < U64
    · left
      intro hn
      have := (parseDigits_iff h0 hr _ _).2 ⟨hn, hm⟩
      have hp : toDigit radix '+' = none := rfl
      simp only [parseDigits, hp] at this
      cases this
    · right; omega
  unfold fromStrRadix
  cases s with
  | nil =>
    constructor
    · intro h; cases h
    · rintro ⟨t, ht, h | h, _⟩
      · exact absurd h.symm ht
      · cases h
  | cons c s =>
    dsimp only
    by_cases hc : c = '+'
    · subst hc
      rw [if_pos rfl]
      by_cases hs : s = []
      · subst hs
        rw [if_pos rfl]
        constructor
        · intro h; cases h
        · rintro ⟨t, ht, h | h, hn, hu⟩
          · subst h
            rcases noPlus [] n with h | h
            · exact absurd hn h
            · omega
          · injection h with _ h; exact absurd h.symm ht
      · rw [if_neg hs, parseDigits_iff h0 hr]
        constructor
        · intro h; exact ⟨s, hs, .inr rfl, h.1, h.2⟩
        · rintro ⟨t, ht, h | h, hn, hu⟩
          · subst h
            rcases noPlus s n with h | h
            · exact absurd hn h
            · omega
          · injection h with _ h; subst h; exact ⟨hn, hu⟩
    · rw [if_neg hc, parseDigits_iff h0 hr]
      constructor
      · intro h; exact ⟨c :: s, (by intro e; cases e), .inl rfl, h.1, h.2⟩
      · rintro ⟨t, ht, h | h, hn, hu⟩
        · subst h; exact ⟨hn, hu⟩
        · injection h with h _; exact absurd h hc

theorem stripPrefix_iff (p s t : List Char) : stripPrefix p s = some t ↔ s = p ++ t := by
  unfold stripPrefix
  by_cases h : s.take p.length = p
  · rw [if_pos h]
    constructor
    · intro e
      injection e with e
      rw [← e]
      conv => rhs; lhs; rw [← h]
      rw [List.take_append_drop]
    · intro e; rw [e, List.drop_left]
  · rw [if_neg h]
    constructor
    · intro e; cases e
    · intro e; exact absurd (by rw [e, List.take_left]) h

/-- **C58**, record numbers, both directions: exactly the numerals below 2^64 are accepted, hexadecimal
after `0x` and decimal otherwise, with at least one digit and optionally a plus sign before the digits. -/
theorem C58_record_number (s : List Char) (n : Nat) :
    parseRecordNumber s = some n ↔ n < U64 ∧ ∃ t, t ≠ [] ∧
      (((s = '0' :: 'x' :: t ∨ s = '0' :: 'x' :: '+' :: t) ∧ Numeral 16 t n) ∨
       ((s = t ∨ s = '+' :: t) ∧ Numeral 10 t n)) := by
  have notDec : ∀ (h t : List Char) m, m < U64 → (('0' :: 'x' :: h) = t ∨ ('0' :: 'x' :: h) = '+' :: t) →
      ¬ Numeral 10 t m := by
    intro h t m hm ht hn
    rcases ht with ht | ht
    · subst ht
      have := (parseDigits_iff (by omega) (by omega) _ _).2 ⟨hn, hm⟩
      have h0 : toDigit 10 '0' = some 0 := rfl
      have hx : toDigit 10 'x' = none := rfl
      simp only [parseDigits, h0, hx] at this
      split at this <;> cases this
    · cases ht
  unfold parseRecordNumber
  cases hp : stripPrefix ['0', 'x'] s with
  | some h =>
    have hs := (stripPrefix_iff _ _ _).1 hp
    simp only [List.cons_append, List.nil_append] at hs
    subst hs
    dsimp only
    rw [fromStrRadix_iff (by omega) (by omega)]
    constructor
    · rintro ⟨t, ht, h | h, hn, hu⟩
      · exact ⟨hu, t, ht, .inl ⟨.inl (by rw [h]), hn⟩⟩
      · exact ⟨hu, t, ht, .inl ⟨.inr (by rw [h]), hn⟩⟩
    · rintro ⟨hu, t, ht, ⟨h | h, hn⟩ | ⟨h, hn⟩⟩
      · injection h with _ h; injection h with _ h; exact ⟨t, ht, .inl h, hn, hu⟩
      · injection h with _ h; injection h with _ h; exact ⟨t, ht, .inr h, hn, hu⟩
      · exact absurd hn (notDec _ _ _ hu h)
  | none =>
    dsimp only
    rw [fromStrRadix_iff (by omega) (by omega)]
    constructor
    · rintro ⟨t, ht, h, hn, hu⟩; exact ⟨hu, t, ht, .inr ⟨h, hn⟩⟩
    · rintro ⟨hu, t, ht, ⟨h | h, _⟩ | ⟨h, hn⟩⟩
      · rw [(stripPrefix_iff ['0', 'x'] s t).2 h] at hp; cases hp
      · rw [(stripPrefix_iff ['0', 'x'] s ('+' :: t)).2 h] at hp; cases hp
      · exact ⟨t, ht, h, hn, hu⟩

example : parseRecordNumber "0xa299".toList = some 41625 ∧ parseRecordNumber "5".toList = some 5 ∧
    parseRecordNumber "18446744073709551616".toList = none ∧ parseRecordNumber "0x".toList = none := by decide
example : Numeral 10 "42".toList 42 :=
  .snoc (s := ['4']) (n := 4) (x := 2) (.snoc (s := []) (n := 0) (x := 4) .nil ⟨by decide, .inl ⟨by decide, by decide⟩⟩)
    ⟨by decide, .inl ⟨by decide, by decide⟩⟩

theorem char_valid (c : Char) : c.toNat < 0xD800 ∨ (0xE000 ≤ c.toNat ∧ c.toNat < 0x110000) := by
  have h := c.valid
  have e : c.toNat = c.val.toNat := rfl
  rcases h with h | ⟨h1, h2⟩
  · left; rw [e]; exact h
  · right; rw [e]; exact ⟨by omega, h2⟩

theorem lossy_unit (u : Nat) (s : List Nat) (h : u < 0xD800 ∨ 0xE000 ≤ u) : lossy (u :: s) = Char.ofNat u :: lossy s := by
  cases s with
  | nil =>
    simp only [lossy]
    rw [if_neg (by omega)]
  | cons v s =>
    simp only [lossy]
    rw [if_pos h]

/-- **C58**, names: converting a string to UTF-16 and back gives the string, so a name shown by `dir` that
was a well-formed string stands for the same code units when it is typed. -/
theorem C58_utf16 (s : List Char) : lossy (utf16 s) = s := by
  induction s with
  | nil => rfl
  | cons c s ih =>
    have hv := char_valid c
    simp only [utf16]
    by_cases h : c.toNat < 0x10000
    · rw [if_pos h, lossy_unit _ _ (by omega), ih, Char.ofNat_toNat]
    · rw [if_neg h]
      simp only [lossy]
      have hq : (c.toNat - 0x10000) / 0x400 < 0x400 := by omega
      have hm : (c.toNat - 0x10000) % 0x400 < 0x400 := Nat.mod_lt _ (by omega)
      rw [if_neg (by omega), if_pos (by omega), ih]
      have : 0x10000 + (0xD800 + (c.toNat - 0x10000) / 0x400 - 0xD800) * 0x400 +
          (0xDC00 + (c.toNat - 0x10000) % 0x400 - 0xDC00) = c.toNat := by omega
      rw [this, Char.ofNat_toNat]

/-- **C58**: different names have different code units. -/
theorem C58_utf16_injective (s t : List Char) (h : utf16 s = utf16 t) : s = t := by
  rw [← C58_utf16 s, h, C58_utf16]

example : utf16 "a😀".toList = [0x61, 0xD83D, 0xDE00] := by decide

/-- The theorems of this file on concrete lines. -/
theorem exTight : Tight "cd".toList ∧ Tight "my  folder".toList := by
  refine ⟨⟨?_, ?_⟩, ?_, ?_⟩ <;> (intro c hc; have := Option.some.inj hc; subst this; decide)

example := C58_command (before := "  ".toList) (gap := "\t ".toList) (after := "\n".toList) (by unfold Blank; decide)
  (by unfold Blank; decide) (by unfold Blank; decide) exTight.1 (by decide) (by decide) exTight.2 (by decide)
example := C58_command_alone (before := "  ".toList) (after := "\n".toList) (by unfold Blank; decide) (by unfold Blank; decide)
  exTight.1 (by decide)
example := C58_stream "a.txt".toList "b:c".toList (by decide)
example (s : Shell) (d : Dev) := C58_output s "a.txt".toList "b".toList (by decide) (fun f => f = "a.txt".toList) 9 d
example : utf16 "a😀".toList ≠ utf16 "b😀".toList := fun h => absurd (C58_utf16_injective _ _ h) (by decide)

end NT
