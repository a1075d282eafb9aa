/-
Lemmas about the string functions.
-/
import Verif.Model.Cstr
import Verif.Spec.Cli
import Verif.Lemmas.Mem

namespace FlatCV

open Model Spec

theorem isspace_eq (c : Char) : isspace c = blank c := by
  have h : ∀ d : Char, (c = d) ↔ c.toNat = d.toNat := fun d =>
    ⟨fun e => by rw [e], fun e => Char.ext (UInt32.toNat_inj.1 e)⟩
  unfold isspace blank
  rw [Bool.eq_iff_iff]
  simp only [Bool.or_eq_true, Bool.and_eq_true, beq_iff_eq, decide_eq_true_eq, List.mem_cons, List.not_mem_nil, or_false, h]
  have h1 : (' ' : Char).toNat = 32 := rfl
  have h2 : ('\t' : Char).toNat = 9 := rfl
  have h3 : ('\n' : Char).toNat = 10 := rfl
  have h4 : ('\x0b' : Char).toNat = 11 := rfl
  have h5 : ('\x0c' : Char).toNat = 12 := rfl
  have h6 : ('\r' : Char).toNat = 13 := rfl
  rw [h1, h2, h3, h4, h5, h6]
  omega

theorem isspace_fun : isspace = blank := funext isspace_eq

theorem isdigit_eq (c : Char) : isdigit c = c.isDigit := by
  unfold isdigit Char.isDigit
  rw [Bool.eq_iff_iff]
  simp only [Bool.and_eq_true, decide_eq_true_eq, ge_iff_le, Char.toNat, UInt32.le_iff_toNat_le]
  exact Iff.rfl

theorem isdigit_fun : isdigit = Char.isDigit := funext isdigit_eq

theorem digitsVal_eq (ds : List Char) : digitsVal ds = Nat.ofDigitChars 10 ds 0 := by
  unfold digitsVal
  rw [Nat.ofDigitChars_eq_foldl]
  congr 1
  funext v c
  have : ('0' : Char).toNat = 48 := rfl
  rw [this, Nat.mul_comm]

theorem trim_eq (s : List Char) : trim_whitespace s = strip s := by
  unfold trim_whitespace strip
  rw [isspace_fun]
  rfl

theorem digit_not_blank {c : Char} (h : c.isDigit) : blank c = false := by
  rw [← isspace_eq]
  have h' : isdigit c = true := by rw [isdigit_eq]; exact h
  unfold isdigit at h'
  unfold isspace
  simp only [Bool.and_eq_true, decide_eq_true_eq] at h'
  rw [Bool.eq_false_iff]
  simp only [ne_eq, Bool.or_eq_true, Bool.and_eq_true, beq_iff_eq, decide_eq_true_eq]
  omega

theorem takeWhile_of_all {α : Type} {p : α → Bool} {a b : List α} (ha : ∀ x ∈ a, p x) (hb : ∀ x, b.head? = some x → p x = false) :
    (a ++ b).takeWhile p = a ∧ (a ++ b).dropWhile p = b := by
  induction a with
  | nil =>
    cases b with
    | nil => exact ⟨rfl, rfl⟩
    | cons x t =>
      have := hb x rfl
      simp [this]
  | cons x t ih =>
    have hx := ha x (List.mem_cons_self ..)
    have := ih fun y hy => ha y (List.mem_cons_of_mem _ hy)
    simp [hx, this.1, this.2]

/-- Reading a numeral followed by something that is no digit. -/
theorem scanInt_of {s rest : List Char} {neg : Bool} {n : Nat} (h : Numeral s neg n)
    (hr : ∀ x, rest.head? = some x → x.isDigit = false) : scanInt (s ++ rest) = some (neg, n, rest) := by
  obtain ⟨bl, sg, ds, rfl, hbl, hsg, hne, hds, rfl⟩ := h
  obtain ⟨c, t, rfl⟩ := List.exists_cons_of_ne_nil hne
  have hc := hds c (List.mem_cons_self ..)
  have hcs : c ≠ '-' ∧ c ≠ '+' := by
    constructor <;> (rintro rfl; exact absurd hc (by decide))
  have hdig := takeWhile_of_all (p := Char.isDigit) (a := c :: t) (b := rest) hds hr
  unfold scanInt
  have hdrop : ((bl ++ sg ++ (c :: t)) ++ rest).dropWhile isspace = sg ++ (c :: t) ++ rest := by
    rw [isspace_fun, List.append_assoc, List.append_assoc, ← List.append_assoc]
    rw [List.append_assoc bl, ← List.append_assoc sg]
    refine (takeWhile_of_all hbl ?_).2
    intro x hx
    cases neg
    · rw [if_neg (by simp)] at hsg
      rcases List.mem_cons.1 hsg with rfl | hsg
      · cases hx
        exact digit_not_blank hc
      · rw [List.mem_singleton.1 hsg] at hx
        cases hx
        decide
    · rw [if_pos rfl] at hsg
      rw [List.mem_singleton.1 hsg] at hx
      cases hx
      decide
  rw [hdrop]
  rw [isdigit_fun]
  have fin : ∀ b : Bool, (if (c :: t ++ rest).takeWhile Char.isDigit = [] then none else
      some (b, digitsVal ((c :: t ++ rest).takeWhile Char.isDigit), (c :: t ++ rest).dropWhile Char.isDigit)) =
      some (b, Nat.ofDigitChars 10 (c :: t) 0, rest) := by
    intro b
    rw [hdig.1, hdig.2, if_neg (by simp), digitsVal_eq]
  cases neg
  · rw [if_neg (by simp)] at hsg
    rcases List.mem_cons.1 hsg with rfl | hsg
    · simp only [List.nil_append, List.cons_append, if_neg hcs.1, if_neg hcs.2]
      exact fin false
    · rw [List.mem_singleton.1 hsg]
      simp only [List.cons_append, if_neg (show ¬ ('+' = '-') by decide), if_pos]
      exact fin false
  · rw [if_pos rfl] at hsg
    rw [List.mem_singleton.1 hsg]
    simp only [List.cons_append, if_pos]
    exact fin true

/-- What has been read is a numeral. -/
theorem scanInt_some {s rest : List Char} {neg : Bool} {n : Nat} (h : scanInt s = some (neg, n, rest)) :
    ∃ t, s = t ++ rest ∧ Numeral t neg n := by
  unfold scanInt at h
  rw [isspace_fun, isdigit_fun] at h
  have hs := List.takeWhile_append_dropWhile (p := blank) (l := s)
  have hbl : ∀ c ∈ s.takeWhile blank, blank c := fun c hc => List.mem_takeWhile_imp hc
  generalize s.takeWhile blank = bl at hs hbl
  generalize s.dropWhile blank = s1 at hs h
  have key : ∀ (sg : List Char) (b : Bool) (u : List Char), s1 = sg ++ u → sg ∈ (if b then [['-']] else [[], ['+']]) →
      (if u.takeWhile Char.isDigit = [] then none else
        some (b, digitsVal (u.takeWhile Char.isDigit), u.dropWhile Char.isDigit)) = some (neg, n, rest) →
      ∃ t, s = t ++ rest ∧ Numeral t neg n := by
    intro sg b u e hsg hu
    split_ifs at hu with h0
    cases hu
    refine ⟨bl ++ sg ++ u.takeWhile Char.isDigit, ?_, bl, sg, _, rfl, hbl, hsg, h0, fun c hc => List.mem_takeWhile_imp hc,
      (digitsVal_eq _).symm⟩
    rw [← hs, e, List.append_assoc, List.takeWhile_append_dropWhile, List.append_assoc]
  cases s1 with
  | nil => exact key [] false [] rfl (by decide) h
  | cons c t =>
    dsimp only at h
    by_cases h1 : c = '-'
    · simp only [if_pos h1] at h
      exact key ['-'] true t (by rw [h1]; rfl) (by decide) h
    · simp only [if_neg h1] at h
      by_cases h2 : c = '+'
      · simp only [if_pos h2] at h
        exact key ['+'] false t (by rw [h2]; rfl) (by decide) h
      · simp only [if_neg h2] at h
        exact key [] false (c :: t) rfl (by decide) h

theorem numeral_dec (n : Nat) : Numeral (dec n) false n :=
  ⟨[], [], dec n, rfl, by simp, by simp, Nat.toDigits_ne_nil, fun _ hc => Nat.isDigit_of_mem_toDigits (by decide) (by decide) hc,
    Nat.ofDigitChars_ten_toDigits⟩

theorem numeral_signed (z : Int) : Numeral (signed z) (decide (z < 0)) z.natAbs := by
  refine ⟨[], [if z < 0 then '-' else '+'], dec z.natAbs, rfl, by simp, ?_, Nat.toDigits_ne_nil,
    fun _ hc => Nat.isDigit_of_mem_toDigits (by decide) (by decide) hc, Nat.ofDigitChars_ten_toDigits⟩
  by_cases h : z < 0 <;> simp [h]

theorem strtoul_dec {lmax n : Nat} (hn : n ≤ 2 * lmax + 1) {rest : List Char} (hr : ∀ x, rest.head? = some x → x.isDigit = false) :
    strtoul lmax (dec n ++ rest) = (n, rest) := by
  unfold strtoul
  rw [scanInt_of (numeral_dec n) hr]
  dsimp only
  rw [if_neg (by omega), if_neg (by simp)]

theorem strtoul_big {lmax n : Nat} (hn : 2 * lmax + 1 < n) {rest : List Char} (hr : ∀ x, rest.head? = some x → x.isDigit = false) :
    strtoul lmax (dec n ++ rest) = (2 * lmax + 1, rest) := by
  unfold strtoul
  rw [scanInt_of (numeral_dec n) hr]
  dsimp only
  rw [if_pos hn]

theorem strtol_signed {lmax : Nat} {z : Int} (h1 : -(lmax : Int) - 1 ≤ z) (h2 : z ≤ lmax) {rest : List Char}
    (hr : ∀ x, rest.head? = some x → x.isDigit = false) : strtol lmax (signed z ++ rest) = (z, rest) := by
  unfold strtol
  rw [scanInt_of (numeral_signed z) hr]
  dsimp only
  by_cases h : z < 0
  · rw [if_pos (by simp [h]), if_neg (by omega)]
    congr 1
    omega
  · rw [if_neg (by simp [h]), if_neg (by omega)]
    congr 1
    omega

theorem strtol_signed_big {lmax : Nat} {z : Int} (h : z < -(lmax : Int) - 1 ∨ (lmax : Int) < z) {rest : List Char}
    (hr : ∀ x, rest.head? = some x → x.isDigit = false) :
    strtol lmax (signed z ++ rest) = (if z < 0 then -(lmax : Int) - 1 else lmax, rest) := by
  unfold strtol
  rw [scanInt_of (numeral_signed z) hr]
  dsimp only
  by_cases h0 : z < 0
  · rw [if_pos (by simp [h0]), if_pos (by omega), if_pos h0]
    congr 1
    omega
  · rw [if_neg (by simp [h0]), if_pos (by omega), if_neg h0]

theorem signed_ne_nil (z : Int) (r : List Char) : signed z ++ r ≠ [] := by
  unfold signed
  simp

theorem signed_head (z : Int) (r : List Char) : ∀ x, (signed z ++ r).head? = some x → x.isDigit = false := by
  intro x hx
  unfold signed at hx
  cases hx
  by_cases h : z < 0 <;> simp [h]

end FlatCV
