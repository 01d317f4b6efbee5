import Verif.Format.Lemmas2
import Mathlib.Data.List.TakeWhile

/-! Lemmas on the text of a duration. -/

namespace Polog
open FormatSpec

def zeroOrDot (c : Char) : Bool := c == '0' || c == '.'

theorem rstripZeros_eq (s : Str) : rstripZeros s = (s.reverse.dropWhile zeroOrDot).reverse := rfl

theorem rstrip_all (a b : Str) (h : ∀ c ∈ b, zeroOrDot c = true) : rstripZeros (a ++ b) = rstripZeros a := by
  rw [rstripZeros_eq, List.reverse_append, List.dropWhile_append_of_pos (by simpa using h)]
  rfl

theorem rstrip_last (a : Str) (c : Char) (h : zeroOrDot c = false) : rstripZeros (a ++ [c]) = a ++ [c] := by
  rw [rstripZeros_eq, List.reverse_append]
  simp [h]

theorem rstrip_some (a b : Str) (h : ∃ c ∈ b, zeroOrDot c = false) : rstripZeros (a ++ b) = a ++ rstripZeros b := by
  rw [rstripZeros_eq, rstripZeros_eq, List.reverse_append, List.dropWhile_append, if_neg]
  · simp
  · rw [List.isEmpty_iff, List.dropWhile_eq_nil_iff]
    intro hall
    obtain ⟨c, hc, hf⟩ := h
    rw [hall c (by simpa using hc)] at hf
    cases hf

/-- What is cut off is of zeros and dots only. -/
theorem rstrip_split (s : Str) : ∃ z, s = rstripZeros s ++ z ∧ ∀ c ∈ z, zeroOrDot c = true := by
  refine ⟨(s.reverse.takeWhile zeroOrDot).reverse, ?_, ?_⟩
  · rw [rstripZeros_eq, ← List.reverse_append, List.takeWhile_append_dropWhile, List.reverse_reverse]
  · intro c hc
    rw [List.mem_reverse] at hc
    have := List.all_takeWhile (p := zeroOrDot) (l := s.reverse)
    rw [List.all_eq_true] at this
    exact this c hc

theorem digits_zero {c : Char} (hd : c.isDigit) (h : zeroOrDot c = true) : c = '0' := by
  unfold zeroOrDot at h
  rw [Bool.or_eq_true, beq_iff_eq, beq_iff_eq] at h
  rcases h with h | h
  · exact h
  · subst h; revert hd; decide

theorem digitsPad_digits (w n : Nat) : ∀ c ∈ digitsPad w n, c.isDigit := by
  intro c hc
  unfold digitsPad at hc
  rcases List.mem_append.1 hc with h | h
  · rw [List.eq_of_mem_replicate h]; decide
  · exact Nat.isDigit_of_mem_toDigits (by decide) (by decide) h

theorem digitsPad_value (w n : Nat) : Nat.ofDigitChars 10 (digitsPad w n) 0 = n := by
  unfold digitsPad
  rw [Nat.ofDigitChars_append, Nat.ofDigitChars_replicate_zero, Nat.mul_zero, Nat.ofDigitChars_ten_toDigits]

theorem digitsPad_length (w n : Nat) (hw : 0 < w) (h : n < 10 ^ w) : (digitsPad w n).length = w := by
  unfold digitsPad
  have := (Nat.length_toDigits_le_iff (b := 10) (by decide) hw).2 h
  simp only [List.length_append, List.length_replicate]
  omega

theorem zeros_value : ∀ (z : Str), (∀ c ∈ z, c = '0') → ∀ i, Nat.ofDigitChars 10 z i = 10 ^ z.length * i := by
  intro z hz i
  have : z = List.replicate z.length '0' := List.eq_replicate_of_mem hz
  rw [this, Nat.ofDigitChars_replicate_zero, List.length_replicate]

/-- The digits after the point. -/
theorem rstrip_frac (f : Nat) (h0 : f ≠ 0) (h : f < 10 ^ 8) : ∃ frac, rstripZeros (digitsPad 8 f) = frac ∧
    frac ≠ [] ∧ (∀ c ∈ frac, c.isDigit) ∧ frac.length ≤ 8 ∧ f = Nat.ofDigitChars 10 frac 0 * 10 ^ (8 - frac.length) := by
  obtain ⟨z, hz, hall⟩ := rstrip_split (digitsPad 8 f)
  refine ⟨_, rfl, ?_, ?_, ?_, ?_⟩
  · intro he
    rw [he, List.nil_append] at hz
    have hv := digitsPad_value 8 f
    rw [zeros_value _ (fun c hc => ?_) 0] at hv
    · omega
    · exact digits_zero (digitsPad_digits 8 f c hc) (hall c (hz ▸ hc))
  · intro c hc
    refine digitsPad_digits 8 f c ?_
    rw [hz]
    exact List.mem_append_left _ hc
  · have := congrArg List.length hz
    rw [digitsPad_length 8 f (by decide) h, List.length_append] at this
    omega
  · have hv := digitsPad_value 8 f
    have hl := congrArg List.length hz
    rw [digitsPad_length 8 f (by decide) h, List.length_append] at hl
    rw [hz, Nat.ofDigitChars_append, zeros_value z] at hv
    · have e : 8 - (rstripZeros (digitsPad 8 f)).length = z.length := by omega
      rw [e, Nat.mul_comm]
      exact hv.symm
    · intro c hc
      exact digits_zero (digitsPad_digits 8 f c (by rw [hz]; exact List.mem_append_right _ hc)) (hall c hc)

theorem digitsPad_zero : digitsPad 8 0 = List.replicate 8 '0' := by
  unfold digitsPad
  rw [Nat.toDigits_zero]
  rfl

def sign (neg : Bool) : Str := if neg then ['-'] else []

/-- A whole number of seconds: the zeros before the point are cut off too. -/
theorem rstrip_whole (neg : Bool) (i : Nat) :
    rstripZeros (fixed8 neg (i * 10 ^ 8)) = rstripZeros (sign neg ++ Nat.toDigits 10 i) := by
  unfold fixed8
  rw [Nat.mul_mod_left, Nat.mul_div_cancel _ (by decide), digitsPad_zero, rstrip_all]
  · rfl
  · decide

theorem digitChar_zeroOrDot {d : Nat} (h : d < 10) (h0 : d ≠ 0) : zeroOrDot d.digitChar = false := by
  match d, h, h0 with
  | 1, _, _ | 2, _, _ | 3, _, _ | 4, _, _ | 5, _, _ | 6, _, _ | 7, _, _ | 8, _, _ | 9, _, _ => rfl

theorem rstrip_units (neg : Bool) (i : Nat) (h : i % 10 ≠ 0) :
    rstripZeros (sign neg ++ Nat.toDigits 10 i) = sign neg ++ Nat.toDigits 10 i := by
  rw [Nat.toDigits_eq_if (by decide)]
  split
  · exact rstrip_last _ _ (digitChar_zeroOrDot (by omega) (by omega))
  · rw [← List.append_assoc]
    exact rstrip_last _ _ (digitChar_zeroOrDot (by omega) h)

theorem rstrip_tens (neg : Bool) (i : Nat) (h : i % 10 = 0) (h0 : i ≠ 0) :
    rstripZeros (sign neg ++ Nat.toDigits 10 i) = rstripZeros (sign neg ++ Nat.toDigits 10 (i / 10)) := by
  rw [Nat.toDigits_of_base_le (by decide) (by omega : 10 ≤ i), ← List.append_assoc]
  refine rstrip_all _ _ ?_
  rw [h]
  decide

theorem whole_denotes (neg : Bool) (i : Nat) : Denotes (sign neg ++ Nat.toDigits 10 i) neg (i * 10 ^ 8) := by
  refine ⟨Nat.toDigits 10 i, [], Nat.toDigits_ne_nil,
    (fun c hc => Nat.isDigit_of_mem_toDigits (by decide) (by decide) hc), (fun c hc => (nomatch hc)), by decide, ?_, ?_⟩
  · rw [if_pos rfl, List.append_nil]; rfl
  · rw [Nat.ofDigitChars_ten_toDigits]; simp

/-- The text of a duration with something after the point, or whose last digit before it is not zero. -/
theorem rstrip_denotes (neg : Bool) (n : Nat) (h : n % 10 ^ 8 ≠ 0 ∨ (n / 10 ^ 8) % 10 ≠ 0) :
    Denotes (rstripZeros (fixed8 neg n)) neg n := by
  by_cases hf : n % 10 ^ 8 = 0
  · have h2 : (n / 10 ^ 8) % 10 ≠ 0 := h.resolve_left (fun h => h hf)
    have e : n = (n / 10 ^ 8) * 10 ^ 8 := by omega
    generalize n / 10 ^ 8 = i at e h2
    subst e
    rw [rstrip_whole, rstrip_units _ _ h2]
    exact whole_denotes neg i
  · obtain ⟨frac, hr, hne, hd, hl, hv⟩ := rstrip_frac (n % 10 ^ 8) hf (Nat.mod_lt _ (by decide))
    have hex : ∃ c ∈ digitsPad 8 (n % 10 ^ 8), zeroOrDot c = false := by
      by_contra hcon
      have hall : ∀ c ∈ digitsPad 8 (n % 10 ^ 8), zeroOrDot c = true := by
        intro c hc
        cases hz : zeroOrDot c with
        | true => rfl
        | false => exact absurd ⟨c, hc, hz⟩ hcon
      have := rstrip_all [] _ hall
      rw [List.nil_append, hr] at this
      exact hne this
    refine ⟨Nat.toDigits 10 (n / 10 ^ 8), frac, Nat.toDigits_ne_nil,
      fun c hc => Nat.isDigit_of_mem_toDigits (by decide) (by decide) hc, hd, hl, ?_, ?_⟩
    · unfold fixed8
      have e : (if neg = true then ['-'] else []) ++ Nat.toDigits 10 (n / 10 ^ 8) ++ '.' :: digitsPad 8 (n % 10 ^ 8) =
          ((if neg = true then ['-'] else []) ++ Nat.toDigits 10 (n / 10 ^ 8) ++ ['.']) ++ digitsPad 8 (n % 10 ^ 8) := by
        simp
      rw [e, rstrip_some _ _ hex, hr, if_neg hne]
      simp
    · rw [Nat.ofDigitChars_ten_toDigits, ← hv]
      omega

theorem digit_ne {c : Char} (h : c.isDigit) : c ≠ '-' ∧ c ≠ '.' := by
  constructor
  · rintro rfl; revert h; decide
  · rintro rfl; revert h; decide

theorem denotes_split {s : Str} {neg : Bool} {units : Nat} (h : Denotes s neg units) :
    ∃ whole frac : Str, whole ≠ [] ∧ (∀ c ∈ whole, c.isDigit) ∧ s = sign neg ++ (whole ++ (if frac = [] then [] else '.' :: frac)) ∧
      splitChar '.' (whole ++ (if frac = [] then [] else '.' :: frac)) = (if frac = [] then [whole] else [whole, frac]) ∧
      units = Nat.ofDigitChars 10 whole 0 * 10 ^ 8 + Nat.ofDigitChars 10 frac 0 * 10 ^ (8 - frac.length) := by
  obtain ⟨whole, frac, h1, h2, h3, h4, h5, h6⟩ := h
  refine ⟨whole, frac, h1, h2, by rw [h5, List.append_assoc]; rfl, ?_, h6⟩
  have hw : '.' ∉ whole := fun hm => (digit_ne (h2 _ hm)).2 rfl
  have hf : '.' ∉ frac := fun hm => (digit_ne (h3 _ hm)).2 rfl
  by_cases e : frac = []
  · rw [if_pos e, if_pos e, List.append_nil]
    exact splitChar_of_not_mem _ _ hw
  · rw [if_neg e, if_neg e, splitChar_append _ _ _ hw, splitChar_of_not_mem _ _ hf]

theorem denotes_unique {s : Str} {neg neg' : Bool} {m n : Nat} (h : Denotes s neg m) (h' : Denotes s neg' n) :
    neg = neg' ∧ m = n := by
  obtain ⟨w, f, hw, hd, hs, hsp, hm⟩ := denotes_split h
  obtain ⟨w', f', hw', hd', hs', hsp', hn⟩ := denotes_split h'
  have hcons : ∀ (w f : Str), w ≠ [] → (∀ c ∈ w, c.isDigit) →
      ∃ c t, w ++ (if f = [] then [] else '.' :: f) = c :: t ∧ c ≠ '-' := by
    intro w f h1 h2
    cases w with
    | nil => exact absurd rfl h1
    | cons c t => exact ⟨c, _, rfl, (digit_ne (h2 c List.mem_cons_self)).1⟩
  obtain ⟨c, t, hc, hcn⟩ := hcons w f hw hd
  obtain ⟨c', t', hc', hcn'⟩ := hcons w' f' hw' hd'
  have hneg : neg = neg' ∧ w ++ (if f = [] then [] else '.' :: f) = w' ++ (if f' = [] then [] else '.' :: f') := by
    rw [hs] at hs'
    rw [hc, hc'] at hs' ⊢
    cases neg <;> cases neg'
    · exact ⟨rfl, hs'⟩
    · exact absurd (List.cons.inj hs').1 hcn
    · exact absurd (List.cons.inj hs').1.symm hcn'
    · exact ⟨rfl, (List.cons.inj hs').2⟩
  refine ⟨hneg.1, ?_⟩
  rw [hneg.2, hsp'] at hsp
  have hwf : w = w' ∧ f = f' := by
    by_cases e : f = [] <;> by_cases e' : f' = []
    · rw [if_pos e, if_pos e'] at hsp
      exact ⟨(List.cons.inj hsp).1.symm, by rw [e, e']⟩
    · rw [if_pos e, if_neg e'] at hsp; cases hsp
    · rw [if_neg e, if_pos e'] at hsp; cases hsp
    · rw [if_neg e, if_neg e'] at hsp
      injection hsp with a b
      injection b with b _
      exact ⟨a.symm, b.symm⟩
  rw [hm, hn, hwf.1, hwf.2]

theorem whole_text (neg : Bool) (i : Nat) (h0 : i ≠ 0) : ∃ j, j ≤ i ∧ (i % 10 = 0 → j < i) ∧
    Denotes (rstripZeros (sign neg ++ Nat.toDigits 10 i)) neg (j * 10 ^ 8) := by
  induction i using Nat.strongRecOn with
  | ind i ih =>
    by_cases h : i % 10 = 0
    · obtain ⟨j, hj, _, hd⟩ := ih (i / 10) (by omega) (by omega)
      rw [rstrip_tens neg i h h0]
      exact ⟨j, by omega, fun _ => by omega, hd⟩
    · rw [rstrip_units neg i h]
      exact ⟨i, Nat.le_refl _, fun h' => absurd h' h, whole_denotes neg i⟩

theorem rstrip_wrong (neg : Bool) (n : Nat) (h : n % 10 ^ 8 = 0) (h' : (n / 10 ^ 8) % 10 = 0) :
    ¬ Denotes (rstripZeros (fixed8 neg n)) neg n := by
  have e : n = (n / 10 ^ 8) * 10 ^ 8 := by omega
  generalize n / 10 ^ 8 = i at e h'
  subst e
  rw [rstrip_whole]
  intro hd
  by_cases h0 : i = 0
  · subst h0
    rw [Nat.toDigits_zero, rstrip_all _ _ (by decide)] at hd
    obtain ⟨w, f, hw, hdw, hs, _, _⟩ := denotes_split hd
    cases w with
    | nil => exact hw rfl
    | cons c t =>
      have hc := (digit_ne (hdw c List.mem_cons_self)).1
      cases neg with
      | false => cases hs
      | true =>
        injection hs with _ hs
        cases hs
  · obtain ⟨j, hj, hlt, hd'⟩ := whole_text neg i h0
    have := (denotes_unique hd hd').2
    have := hlt h'
    omega

theorem roundHalfEven_nearest (num den : Nat) (h : 0 < den) : Nearest num den (roundHalfEven num den) := by
  unfold Nearest roundHalfEven
  have hdm := Nat.div_add_mod num den
  have hlt := Nat.mod_lt num h
  generalize num / den = q at *
  generalize num % den = r at *
  have e1 : ∀ q, (2 * q + 1) * den = 2 * (den * q) + den := by
    intro q; rw [Nat.add_mul, Nat.mul_assoc, Nat.mul_comm q den, Nat.one_mul]
  have e2 : ∀ q, 2 * q * den = 2 * (den * q) := by
    intro q; rw [Nat.mul_assoc, Nat.mul_comm q den]
  have e3 : den * (q + 1) = den * q + den := Nat.mul_succ den q
  dsimp only
  split
  · rw [e1, e2]; omega
  · split
    · rw [e1, e2, e3]; omega
    · split
      · rw [e1, e2]; exact ⟨by omega, by omega, fun _ => by omega⟩
      · rw [e1, e2, e3]; exact ⟨by omega, by omega, fun _ => by omega⟩

end Polog
