/-
Coordinates of `fcv_resize`: rounding errors and the grid the values lie on.
-/
import Verif.Lemmas.BlurKernel
import Verif.Lemmas.Draw
import Verif.Model.Resize
import Verif.Spec.Resize

namespace FlatCV

open Model

/-- `x` is a multiple of `2^-k`. -/
def Grid (k : ℕ) (x : ℚ) : Prop := ∃ z : ℤ, x = z / 2 ^ k

theorem Grid.add {k : ℕ} {x y : ℚ} (hx : Grid k x) (hy : Grid k y) : Grid k (x + y) := by
  obtain ⟨a, rfl⟩ := hx
  obtain ⟨b, rfl⟩ := hy
  exact ⟨a + b, by push_cast; ring⟩

theorem Grid.sub {k : ℕ} {x y : ℚ} (hx : Grid k x) (hy : Grid k y) : Grid k (x - y) := by
  obtain ⟨a, rfl⟩ := hx
  obtain ⟨b, rfl⟩ := hy
  exact ⟨a - b, by push_cast; ring⟩

theorem Grid.int (k : ℕ) (z : ℤ) : Grid k z := ⟨z * 2 ^ k, by push_cast; field_simp⟩

theorem Grid.mono {k l : ℕ} (h : k ≤ l) {x : ℚ} (hx : Grid k x) : Grid l x := by
  obtain ⟨a, rfl⟩ := hx
  refine ⟨a * 2 ^ (l - k), ?_⟩
  push_cast
  rw [div_eq_div_iff (by positivity) (by positivity), mul_assoc, ← pow_add]
  congr 2
  omega

theorem Grid.half : Grid 1 (1 / 2) := ⟨1, by norm_num⟩

theorem Grid.pos {k : ℕ} {x : ℚ} (hx : Grid k x) (h : 0 < x) : 1 / 2 ^ k ≤ x := by
  obtain ⟨a, rfl⟩ := hx
  have hp : (0 : ℚ) < 2 ^ k := by positivity
  have h1 : (0 : ℚ) < a := by
    by_contra hc
    have : (a : ℚ) / 2 ^ k ≤ 0 := div_nonpos_of_nonpos_of_nonneg (not_lt.1 hc) hp.le
    linarith
  have h2 : 0 < a := by exact_mod_cast h1
  have h3 : (1 : ℚ) ≤ a := by exact_mod_cast h2
  exact div_le_div_of_nonneg_right h3 hp.le

theorem grid_of_zpow {k : ℕ} {z e : ℤ} (he : -(k : ℤ) ≤ e) : Grid k ((z : ℚ) * 2 ^ e) := by
  refine ⟨z * 2 ^ (e + k).toNat, ?_⟩
  push_cast
  rw [eq_div_iff (by positivity), ← zpow_natCast (2 : ℚ) (e + k).toNat, Int.toNat_of_nonneg (by omega),
    zpow_add₀ (by norm_num), zpow_natCast]
  ring

/-- Rounding to `double` keeps multiples of `2^-k`. -/
theorem Grid.rnd {k : ℕ} {x : ℚ} (hx : Grid k x) : Grid k (Fmt.b64.rnd x) := by
  by_cases he : -(k : ℤ) ≤ Fmt.b64.ulpExp x
  · exact grid_of_zpow he
  · push Not at he
    obtain ⟨z, hz⟩ := hx
    have hi : x / 2 ^ Fmt.b64.ulpExp x = ((z * 2 ^ (-(k : ℤ) - Fmt.b64.ulpExp x).toNat : ℤ) : ℚ) := by
      rw [div_eq_iff (two_zpow_pos _).ne']
      generalize Fmt.b64.ulpExp x = e at he
      rw [hz]
      push_cast
      rw [← zpow_natCast (2 : ℚ) (Int.toNat _), Int.toNat_of_nonneg (by omega), mul_assoc,
        ← zpow_add₀ (by norm_num), sub_add_cancel, zpow_neg, zpow_natCast]
      rfl
    have : Fmt.b64.rnd x = x := by
      unfold Fmt.rnd
      rw [hi, rne_int, ← hi, div_mul_cancel₀ _ (two_zpow_pos _).ne']
    rw [this]
    exact ⟨z, hz⟩

/-- A rounded value of size at least `2^-m` is a multiple of `2^-(m+52)`. -/
theorem grid_rnd_of_ge {m : ℕ} {x : ℚ} (hx : 1 / 2 ^ m ≤ x) : Grid (m + 52) (Fmt.b64.rnd x) := by
  have hp : 0 < x := lt_of_lt_of_le (by positivity) hx
  refine grid_of_zpow ?_
  have h1 : -(m : ℤ) ≤ Int.log 2 x := by
    refine (Int.zpow_le_iff_le_log (b := 2) (by norm_num) hp).1 ?_
    push_cast
    rw [zpow_neg, zpow_natCast, ← one_div]
    exact hx
  unfold Fmt.ulpExp
  refine le_trans ?_ (le_max_left _ _)
  rw [abs_of_pos hp]
  have : ((Fmt.b64.p : ℕ) : ℤ) = 53 := rfl
  push_cast
  omega

/-! ### One axis -/

/-- The hypotheses on an axis: `n` source pixels, factor `r`, a valid output size. -/
structure Axis (n : ℕ) (r : ℚ) : Prop where
  n_pos : 0 < n
  n_le : n ≤ 1073741824
  rep : Fmt.b64.Rep r
  r_pos : 0 < r
  fits : Fmt.b64.rnd (n * r) ≤ 4294967295
  one_le : 1 ≤ Fmt.b64.rnd (n * r)

theorem rnd64_pos_rel {x : ℚ} (h1 : 1 / 2 ^ 100 ≤ x) : x * (1 - 1 / 2 ^ 53) ≤ Fmt.b64.rnd x ∧
    Fmt.b64.rnd x ≤ x * (1 + 1 / 2 ^ 53) :=
  rnd64_rel' (le_trans (by norm_num) h1)

namespace Axis

variable {n : ℕ} {r : ℚ} (A : Axis n r)
include A

theorem nq : (1 : ℚ) ≤ n := by exact_mod_cast A.n_pos
theorem nq' : (n : ℚ) ≤ 1073741824 := by exact_mod_cast A.n_le

theorem prod_ge : 1 - 1 / 2 ^ 53 ≤ (n : ℚ) * r := by
  by_contra hc
  push Not at hc
  have h0 : 0 < (n : ℚ) * r := mul_pos (by linarith [A.nq]) A.r_pos
  have : Fmt.b64.rnd ((n : ℚ) * r) ≤ 1 - 1 / 2 ^ 53 := by
    refine rnd_le _ hc.le ?_
    have e : (1 : ℚ) - 1 / 2 ^ 53 = ((9007199254740991 : ℤ) : ℚ) * 2 ^ (-53 : ℤ) := by norm_num
    rw [e]
    exact rnd_exact _ (by decide) (by norm_num [Fmt.b64])
  have := A.one_le
  norm_num at *
  linarith

theorem r_ge : 1 / 2 ^ 31 ≤ r := by
  have h1 := A.prod_ge
  have h2 := A.nq'
  have h3 := A.r_pos
  have : (n : ℚ) * r ≤ 1073741824 * r := mul_le_mul_of_nonneg_right h2 h3.le
  norm_num at *
  linarith

theorem prod_rel : (n : ℚ) * r * (1 - 1 / 2 ^ 53) ≤ Fmt.b64.rnd (n * r) ∧
    Fmt.b64.rnd (n * r) ≤ n * r * (1 + 1 / 2 ^ 53) := by
  apply rnd64_pos_rel
  have := A.prod_ge
  refine le_trans ?_ this
  norm_num

theorem prod_le : (n : ℚ) * r ≤ 4294967296 := by
  have h1 := A.prod_rel.1
  have h2 := A.fits
  have h3 : 0 < (n : ℚ) * r := mul_pos (by linarith [A.nq]) A.r_pos
  norm_num at *
  nlinarith

theorem r_le : r ≤ 4294967296 := by
  have h1 := A.prod_le
  have h2 := A.nq
  have h3 := A.r_pos
  nlinarith

theorem dim_pos : 0 < outDim n r := by
  unfold outDim
  have : (1 : ℤ) ≤ ⌊Fmt.b64.rnd (n * r)⌋ := Int.le_floor.2 (by exact_mod_cast A.one_le)
  omega

theorem dim_lt : outDim n r < 4294967296 := by
  unfold outDim
  have : ⌊Fmt.b64.rnd (n * r)⌋ ≤ 4294967295 := by
    have h := Int.floor_le (Fmt.b64.rnd (n * r))
    have := h.trans A.fits
    exact_mod_cast this
  omega

/-- Output pixels end inside the source, up to rounding. -/
theorem end_le {o : ℕ} (ho : o < outDim n r) : ((o : ℚ) + 1) / r ≤ n * (1 + 1 / 2 ^ 53) := by
  have h0 : (outDim n r : ℚ) ≤ Fmt.b64.rnd (n * r) := by
    have h1 : (1 : ℤ) ≤ ⌊Fmt.b64.rnd (n * r)⌋ := Int.le_floor.2 (by exact_mod_cast A.one_le)
    have e : ((outDim n r : ℕ) : ℤ) = ⌊Fmt.b64.rnd (n * r)⌋ := Int.toNat_of_nonneg (by omega)
    have e' : (outDim n r : ℚ) = ((⌊Fmt.b64.rnd (n * r)⌋ : ℤ) : ℚ) := by exact_mod_cast congrArg (Int.cast (R := ℚ)) e
    rw [e']
    exact Int.floor_le _
  have h1 : (o : ℚ) + 1 ≤ outDim n r := by exact_mod_cast ho
  rw [div_le_iff₀ A.r_pos]
  calc (o : ℚ) + 1 ≤ n * r * (1 + 1 / 2 ^ 53) := h1.trans (h0.trans A.prod_rel.2)
    _ = _ := by ring

theorem inv_ge : 1 / 4294967296 ≤ 1 / r :=
  one_div_le_one_div_of_le A.r_pos A.r_le

theorem inv_le_n : 1 / r ≤ n * (1 + 1 / 2 ^ 53) := by
  have := A.end_le (o := 0) A.dim_pos
  simpa using this

/-- The axis error. -/
theorem n_le_inv : (n : ℚ) ≤ 4294967296 * (1 / r) := by
  rw [mul_one_div, le_div_iff₀ A.r_pos]
  exact A.prod_le

end Axis

/-- Error of a rounding in terms of a bound. -/
theorem rnd64_err_le {x B : ℚ} (h : |x| ≤ B) (hB : 1 ≤ B) : |Fmt.b64.rnd x - x| ≤ B / 2 ^ 53 + B / 2 ^ 70 := by
  refine (rnd64_err x).trans ?_
  have h1 : |x| / 2 ^ 53 ≤ B / 2 ^ 53 := div_le_div_of_nonneg_right h (by positivity)
  have h2 : (1 : ℚ) / 2 ^ 1075 ≤ B / 2 ^ 70 := by
    refine div_le_div₀ (by linarith) hB (by positivity) ?_
    exact pow_le_pow_right₀ (by norm_num) (by norm_num)
  linarith

/-- The source coordinate of an output pixel. -/
structure Coord (n : ℕ) (r : ℚ) (o : ℕ) (s : ℚ) : Prop where
  run : resizeCoord r o = .ok s
  err : |s - posn r o| ≤ 4 * n / 2 ^ 53
  grid : Grid 90 s
  ge : -1 / 2 ≤ s
  eq : s = Fmt.b64.rnd (Fmt.b64.rnd ((o + 1 / 2) / r) - 1 / 2)

theorem coord_ok {n : ℕ} {r : ℚ} (A : Axis n r) {o : ℕ} (ho : o < outDim n r) : ∃ s, Coord n r o s := by
  have hr := A.r_pos
  have hn := A.nq
  have hn' := A.nq'
  have he := A.end_le ho
  have hi := A.inv_ge
  have ho0 : (0 : ℚ) ≤ o := Nat.cast_nonneg _
  set q : ℚ := ((o : ℚ) + 1 / 2) / r with hq
  have q1 : q = o * (1 / r) + 1 / 2 * (1 / r) := by rw [hq]; field_simp
  have q2 : ((o : ℚ) + 1) / r = o * (1 / r) + 1 / r := by field_simp
  have hoi : 0 ≤ (o : ℚ) * (1 / r) := mul_nonneg ho0 (by positivity)
  have qlo : 1 / 2 ^ 33 ≤ q := by rw [q1]; norm_num at *; linarith
  have qhi : q ≤ n * (1 + 1 / 2 ^ 53) := by
    rw [q2] at he
    rw [q1]
    have : 0 < 1 / r := by positivity
    linarith
  have qabs : |q| ≤ n * (1 + 1 / 2 ^ 53) := by rw [abs_of_nonneg (by linarith [show (0 : ℚ) ≤ 1 / 2 ^ 33 by positivity])]; exact qhi
  have n60 : (n : ℚ) * (1 + 1 / 2 ^ 53) ≤ 10 ^ 40 := by nlinarith
  have e1 : f64div ((o : ℚ) + 1 / 2) r = .ok (Fmt.b64.rnd q) :=
    f64div_ok hr.ne' (qabs.trans (n60.trans (by norm_num)))
  have err1 := rnd64_err_le qabs (by nlinarith)
  have hd0 : 0 ≤ Fmt.b64.rnd q := rnd_nonneg _ (by linarith [show (0 : ℚ) ≤ 1 / 2 ^ 33 by positivity])
  set d := Fmt.b64.rnd q with hd
  have dhi : d ≤ n * (1 + 1 / 2 ^ 50) := by
    have := (abs_le.1 err1).2
    norm_num at *
    linarith
  have sabs : |d - 1 / 2| ≤ n * (1 + 1 / 2 ^ 50) := by
    rw [abs_le]
    constructor
    · linarith
    · linarith
  have e2 : f64 (d - 1 / 2) = .ok (Fmt.b64.rnd (d - 1 / 2)) := by
    refine f64_ok (sabs.trans ?_)
    nlinarith
  have err2 := rnd64_err_le sabs (by nlinarith)
  refine ⟨Fmt.b64.rnd (d - 1 / 2), ?_, ?_, ?_, ?_, rfl⟩
  · unfold resizeCoord
    rw [e1]
    exact e2
  · unfold posn
    rw [← hq]
    rw [abs_le] at *
    norm_num at *
    constructor <;> linarith
  · refine Grid.rnd (Grid.sub ?_ (Grid.half.mono (by norm_num)))
    exact (grid_rnd_of_ge (m := 33) qlo).mono (by norm_num)
  · refine le_rnd _ (by linarith) ?_
    have e : (-1 / 2 : ℚ) = ((-1 : ℤ) : ℚ) * 2 ^ (-1 : ℤ) := by norm_num
    rw [e]
    exact rnd_exact _ (by decide) (by norm_num [Fmt.b64])

/-- The filter window of an output pixel along one axis. -/
structure Win (n : ℕ) (r : ℚ) (o : ℕ) (a b : ℚ) (i j : ℤ) : Prop where
  run : resizeWindow n r o = .ok (a, b, i, j)
  err_a : |a - (o / r - 1 / 2)| ≤ 16 * n / 2 ^ 53
  err_b : |b - ((o + 1) / r - 1 / 2)| ≤ 16 * n / 2 ^ 53
  grid_a : Grid 90 a
  grid_b : Grid 90 b
  i_eq : i = max 0 ⌊a⌋
  j_eq : j = min ⌈b⌉ n
  lt : a < b
  lt_n : a < n
  b_eq : b = Fmt.b64.rnd (Fmt.b64.rnd (Fmt.b64.rnd ((o + 1 / 2) / r) - 1 / 2) +
    Fmt.b64.rnd (Fmt.b64.rnd (1 / r) * (1 / 2)))

theorem floor_bound {x : ℚ} (h1 : -2 ≤ x) (h2 : x ≤ 1073741826) : castI32 ((⌊x⌋ : ℤ) : ℚ) = .ok ⌊x⌋ := by
  have a1 : (-2 : ℤ) ≤ ⌊x⌋ := Int.le_floor.2 (by exact_mod_cast h1)
  have a2 : ⌊x⌋ ≤ (1073741826 : ℤ) := by
    have := (Int.floor_le x).trans h2
    exact_mod_cast this
  unfold castI32
  rw [castInt_ok (by rw [trunc_int]; omega) (by rw [trunc_int]; omega), trunc_int]

theorem ceil_bound {x : ℚ} (h1 : -2 ≤ x) (h2 : x ≤ 1073741826) : castI32 ((⌈x⌉ : ℤ) : ℚ) = .ok ⌈x⌉ := by
  have a1 : (-2 : ℤ) ≤ ⌈x⌉ := by
    have := h1.trans (Int.le_ceil x)
    exact_mod_cast this
  have a2 : ⌈x⌉ ≤ (1073741826 : ℤ) := Int.ceil_le.2 (by exact_mod_cast h2)
  unfold castI32
  rw [castInt_ok (by rw [trunc_int]; omega) (by rw [trunc_int]; omega), trunc_int]

theorem window_ok {n : ℕ} {r : ℚ} (A : Axis n r) {o : ℕ} (ho : o < outDim n r) :
    ∃ a b i j, Win n r o a b i j := by
  obtain ⟨s, C⟩ := coord_ok A ho
  have hr := A.r_pos
  have hn := A.nq
  have hn' := A.nq'
  have he := A.end_le ho
  have hi := A.inv_ge
  have hin := A.inv_le_n
  have hni := A.n_le_inv
  have ho0 : (0 : ℚ) ≤ o := Nat.cast_nonneg _
  have cerr := abs_le.1 C.err
  unfold posn at cerr
  have q1 : ((o : ℚ) + 1 / 2) / r = o * (1 / r) + 1 / 2 * (1 / r) := by field_simp
  have q2 : ((o : ℚ) + 1) / r = o * (1 / r) + 1 / r := by field_simp
  have q3 : (o : ℚ) / r = o * (1 / r) := by field_simp
  rw [q1] at cerr
  rw [q2] at he
  have hoi : 0 ≤ (o : ℚ) * (1 / r) := mul_nonneg ho0 (by positivity)
  have hip : 0 < 1 / r := by positivity
  have vabs : |1 / r| ≤ n * (1 + 1 / 2 ^ 53) := by rw [abs_of_pos hip]; exact hin
  have e1 : f64div 1 r = .ok (Fmt.b64.rnd (1 / r)) := f64div_ok hr.ne' (vabs.trans (by nlinarith))
  generalize hv : 1 / r = v at *
  generalize ht : (o : ℚ) * v = t at *
  have err1 := rnd64_err_le vabs (by linarith)
  have g1 : Grid 88 (Fmt.b64.rnd v) := (grid_rnd_of_ge (m := 32) (le_trans (by norm_num) hi)).mono (by norm_num)
  have hf0 : 0 ≤ Fmt.b64.rnd v := rnd_nonneg _ hip.le
  generalize hf1 : Fmt.b64.rnd v = f at *
  have fabs : |f * (1 / 2)| ≤ n := by
    rw [abs_of_nonneg (by linarith)]
    have := (abs_le.1 err1).2
    linarith
  have e2 : f64 (f * (1 / 2)) = .ok (Fmt.b64.rnd (f * (1 / 2))) := f64_ok (fabs.trans (by linarith))
  have err2 := rnd64_err_le fabs hn
  have g2 : Grid 90 (Fmt.b64.rnd (f * (1 / 2))) := by
    refine Grid.rnd ?_
    obtain ⟨z, hz⟩ := g1
    exact Grid.mono (k := 89) (by norm_num) ⟨z, by rw [hz, pow_succ]; ring⟩
  generalize hf2 : Fmt.b64.rnd (f * (1 / 2)) = hf at *
  have err1' := abs_le.1 err1
  have err2' := abs_le.1 err2
  have aabs : |s - hf| ≤ 2 * n := by rw [abs_le]; constructor <;> linarith
  have babs : |s + hf| ≤ 2 * n := by rw [abs_le]; constructor <;> linarith
  have e3 : f64 (s - hf) = .ok (Fmt.b64.rnd (s - hf)) := f64_ok (aabs.trans (by linarith))
  have e4 : f64 (s + hf) = .ok (Fmt.b64.rnd (s + hf)) := f64_ok (babs.trans (by linarith))
  have err3 := abs_le.1 (rnd64_err_le aabs (by linarith))
  have err4 := abs_le.1 (rnd64_err_le babs (by linarith))
  have g3 : Grid 90 (Fmt.b64.rnd (s - hf)) := Grid.rnd (C.grid.sub g2)
  have g4 : Grid 90 (Fmt.b64.rnd (s + hf)) := Grid.rnd (C.grid.add g2)
  generalize Fmt.b64.rnd (s - hf) = a at *
  generalize hb : Fmt.b64.rnd (s + hf) = b at *
  have e5 : castI32 ((⌊a⌋ : ℤ) : ℚ) = .ok ⌊a⌋ := floor_bound (by linarith) (by linarith)
  have e6 : castI32 ((⌈b⌉ : ℤ) : ℚ) = .ok ⌈b⌉ := ceil_bound (by linarith) (by linarith)
  have en : i32OfU32 n = (n : ℤ) := i32OfU32_eq (by have := A.n_le; omega)
  refine ⟨a, b, max 0 ⌊a⌋, min ⌈b⌉ n, ?_, ?_, ?_, g3, g4, rfl, rfl, ?_, ?_, ?_⟩
  · unfold resizeWindow
    simp only [C.run, ok_bind, e1, e2, e3, e4, e5, e6, en]
    have m1 : (if ⌊a⌋ < 0 then 0 else ⌊a⌋) = max 0 ⌊a⌋ := by split_ifs <;> omega
    have m2 : (if ⌈b⌉ > (n : ℤ) then (n : ℤ) else ⌈b⌉) = min ⌈b⌉ n := by split_ifs <;> omega
    rw [m1, m2]
    rfl
  · rw [q3, abs_le]; constructor <;> linarith
  · rw [q2, abs_le]; constructor <;> linarith
  · linarith
  · linarith
  · rw [hv, hf1, hf2, ← C.eq, hb]

/-- The largest `double` below 2. -/
theorem rep_lt_two {r : ℚ} (hr : Fmt.b64.Rep r) (h0 : 0 < r) (h : r < 2) : r ≤ 2 - 1 / 2 ^ 52 := by
  by_cases h1 : r < 1
  · norm_num; linarith
  push Not at h1
  have e := hr.rnd
  rw [rnd_binade Fmt.b64 (k := 0) (by rw [abs_of_pos h0]; simpa using h1)
    (by rw [abs_of_pos h0]; simpa using h) (by decide)] at e
  have e2 : ((0 : ℤ) - (((Fmt.b64.p : ℕ) : ℤ) - 1)) = -52 := rfl
  rw [e2] at e
  generalize rne (r / 2 ^ (-52 : ℤ)) = z at e
  have e3 : (2 : ℚ) ^ (-52 : ℤ) = 1 / 2 ^ 52 := by norm_num
  rw [e3] at e
  have hz : (z : ℚ) < ((2 ^ 53 : ℤ) : ℚ) := by
    by_contra hc
    push Not at hc
    have : (2 : ℚ) ≤ (z : ℚ) * (1 / 2 ^ 52) := by
      push_cast at hc
      norm_num at hc ⊢
      linarith
    linarith
  have hz' : z < 2 ^ 53 := by exact_mod_cast hz
  have hz'' : z ≤ 2 ^ 53 - 1 := by omega
  have : (z : ℚ) ≤ 2 ^ 53 - 1 := by exact_mod_cast hz''
  rw [← e]
  norm_num at this ⊢
  linarith

/-- Rounding in the binade of 1/4. -/
theorem rnd_quarter {x : ℚ} (h1 : 1 / 4 + 1 / 2 ^ 55 < x) (h2 : x ≤ 1 / 2) : 1 / 4 + 1 / 2 ^ 54 ≤ Fmt.b64.rnd x := by
  rcases h2.eq_or_lt with rfl | h2
  · have : Fmt.b64.rnd (1 / 2) = 1 / 2 := by
      have e : (1 / 2 : ℚ) = ((1 : ℤ) : ℚ) * 2 ^ (-1 : ℤ) := by norm_num
      rw [e]
      exact rnd_exact _ (by decide) (by norm_num [Fmt.b64])
    rw [this]
    norm_num
  have h0 : 0 < x := lt_trans (by norm_num) h1
  rw [rnd_binade Fmt.b64 (k := -2) (by
      rw [abs_of_pos h0]
      norm_num at h1 ⊢
      linarith) (by
      rw [abs_of_pos h0]
      norm_num at h2 ⊢
      linarith) (by decide)]
  have e2 : ((-2 : ℤ) - (((Fmt.b64.p : ℕ) : ℤ) - 1)) = -54 := rfl
  have e3 : (2 : ℚ) ^ (-54 : ℤ) = 1 / 2 ^ 54 := by norm_num
  rw [e2, e3]
  have hx : x / (1 / 2 ^ 54) = x * 2 ^ 54 := by field_simp
  rw [hx]
  have hz := abs_le.1 (rne_err (x * 2 ^ 54))
  have hgt : ((2 ^ 52 : ℤ) : ℚ) < (rne (x * 2 ^ 54) : ℚ) := by
    push_cast
    norm_num at h1 hz ⊢
    linarith
  have hgt' : 2 ^ 52 < rne (x * 2 ^ 54) := by exact_mod_cast hgt
  have hge : 2 ^ 52 + 1 ≤ rne (x * 2 ^ 54) := by omega
  have : (2 : ℚ) ^ 52 + 1 ≤ (rne (x * 2 ^ 54) : ℚ) := by exact_mod_cast hge
  norm_num at this ⊢
  linarith

/-- With a factor below 2 every window reaches into the image. -/
theorem Win.b_pos {n : ℕ} {r : ℚ} {o : ℕ} {a b : ℚ} {i j : ℤ} (W : Win n r o a b i j) (A : Axis n r)
    (h2 : r < 2) : 0 < b := by
  have hr := A.r_pos
  have hi2 : 1 / 2 < 1 / r := one_div_lt_one_div_of_lt hr h2
  by_cases ho : o = 0
  · subst ho
    have hle := rep_lt_two A.rep hr h2
    by_cases h1 : r ≤ 1
    · have e := (abs_le.1 W.err_b).1
      have hn' := A.nq'
      have : 1 ≤ 1 / r := by rw [le_div_iff₀ hr]; linarith
      simp only [Nat.cast_zero, zero_add] at e
      norm_num at e this
      linarith
    · push Not at h1
      have hx : 1 / 4 + 1 / 2 ^ 55 < (((0 : ℕ) : ℚ) + 1 / 2) / r := by
        rw [lt_div_iff₀ hr]
        norm_num at hle ⊢
        nlinarith
      have hx2 : (((0 : ℕ) : ℚ) + 1 / 2) / r ≤ 1 / 2 := by
        rw [div_le_iff₀ hr]
        norm_num
        linarith
      have d1 := rnd_quarter hx hx2
      have d2 : -1 / 4 + 1 / 2 ^ 54 ≤ Fmt.b64.rnd (Fmt.b64.rnd ((((0 : ℕ) : ℚ) + 1 / 2) / r) - 1 / 2) := by
        refine le_rnd _ (by linarith) ?_
        have e : (-1 / 4 + 1 / 2 ^ 54 : ℚ) = ((-4503599627370495 : ℤ) : ℚ) * 2 ^ (-54 : ℤ) := by norm_num
        rw [e]
        exact rnd_exact _ (by decide) (by norm_num [Fmt.b64])
      have p1 : Fmt.b64.rnd (1 / 2) = 1 / 2 := by
        have e : (1 / 2 : ℚ) = ((1 : ℤ) : ℚ) * 2 ^ (-1 : ℤ) := by norm_num
        rw [e]
        exact rnd_exact _ (by decide) (by norm_num [Fmt.b64])
      have p2 : Fmt.b64.rnd (1 / 4) = 1 / 4 := by
        have e : (1 / 4 : ℚ) = ((1 : ℤ) : ℚ) * 2 ^ (-2 : ℤ) := by norm_num
        rw [e]
        exact rnd_exact _ (by decide) (by norm_num [Fmt.b64])
      have f1 : 1 / 2 ≤ Fmt.b64.rnd (1 / r) := le_rnd _ hi2.le p1
      have f2 : 1 / 4 ≤ Fmt.b64.rnd (Fmt.b64.rnd (1 / r) * (1 / 2)) := le_rnd _ (by linarith) p2
      have hb : 1 / 2 ^ 54 ≤ b := by
        rw [W.b_eq]
        refine le_rnd _ (by linarith) ?_
        have e : (1 / 2 ^ 54 : ℚ) = ((1 : ℤ) : ℚ) * 2 ^ (-54 : ℤ) := by norm_num
        rw [e]
        exact rnd_exact _ (by decide) (by norm_num [Fmt.b64])
      exact lt_of_lt_of_le (by positivity) hb
  · have e := (abs_le.1 W.err_b).1
    have hn' := A.nq'
    have h1 : (1 : ℚ) ≤ o := by exact_mod_cast Nat.one_le_iff_ne_zero.2 ho
    have : 1 ≤ ((o : ℚ) + 1) / r := by rw [le_div_iff₀ hr]; linarith
    norm_num at e this
    linarith

/-- With a factor of at least 2 the first window misses the image. -/
theorem Win.b_nonpos {n : ℕ} {r : ℚ} {a b : ℚ} {i j : ℤ} (W : Win n r 0 a b i j) (A : Axis n r)
    (h2 : 2 ≤ r) : b ≤ 0 := by
  have hr := A.r_pos
  have p : ∀ (m e : ℤ), -1074 ≤ e → |m| ≤ 2 ^ 53 → Fmt.b64.rnd ((m : ℚ) * 2 ^ e) = (m : ℚ) * 2 ^ e :=
    fun m e h1 h2 => rnd_exact Fmt.b64 h1 h2
  have d1 : Fmt.b64.rnd ((((0 : ℕ) : ℚ) + 1 / 2) / r) ≤ 1 / 4 := by
    refine rnd_le _ ?_ (by have := p 1 (-2) (by norm_num) (by norm_num); norm_num at this ⊢; exact this)
    rw [div_le_iff₀ hr]
    norm_num
    linarith
  have d2 : Fmt.b64.rnd (Fmt.b64.rnd ((((0 : ℕ) : ℚ) + 1 / 2) / r) - 1 / 2) ≤ -1 / 4 :=
    rnd_le _ (by linarith) (by have := p (-1) (-2) (by norm_num) (by norm_num); norm_num at this ⊢; exact this)
  have f1 : Fmt.b64.rnd (1 / r) ≤ 1 / 2 := by
    refine rnd_le _ ?_ (by have := p 1 (-1) (by norm_num) (by norm_num); norm_num at this ⊢; exact this)
    exact one_div_le_one_div_of_le (by norm_num) h2
  have f2 : Fmt.b64.rnd (Fmt.b64.rnd (1 / r) * (1 / 2)) ≤ 1 / 4 :=
    rnd_le _ (by linarith) (by have := p 1 (-2) (by norm_num) (by norm_num); norm_num at this ⊢; exact this)
  rw [W.b_eq]
  exact rnd_le _ (by linarith) (rnd_zero _)

end FlatCV
