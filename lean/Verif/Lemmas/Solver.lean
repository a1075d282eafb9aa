/-
The linear solver: what each loop does to the augmented matrix, for any arithmetic.
-/
import Verif.Lemmas.Mem
import Verif.Model.Perspective

namespace FlatCV
open Model

variable {α : Type} {R : Arith α}

/-- The array holds the matrix `M`. -/
def RepM (s : Cells α) (M : Nat → Nat → α) : Prop :=
  s.length = 80 ∧ ∀ i j, i < 8 → j < 9 → s[i * 10 + j]? = some (some (M i j))

def updM (M : Nat → Nat → α) (i j : Nat) (v : α) : Nat → Nat → α :=
  fun a b => if a = i ∧ b = j then v else M a b

theorem RepM.rd {s : Cells α} {M : Nat → Nat → α} (h : RepM s M) {i j : Nat} (hi : i < 8) (hj : j < 9) :
    augRd s i j = .ok (M i j) := rd_ok (h.2 i j hi hj)

theorem RepM.congr {s : Cells α} {M M' : Nat → Nat → α} (h : RepM s M)
    (e : ∀ i j, i < 8 → j < 9 → M i j = M' i j) : RepM s M' :=
  ⟨h.1, fun i j hi hj => by rw [h.2 i j hi hj, e i j hi hj]⟩

theorem RepM.wr {s : Cells α} {M : Nat → Nat → α} (h : RepM s M) {i j : Nat} (hi : i < 8) (hj : j < 9) (v : α) :
    Ok (augWr s i j v) (RepM · (updM M i j v)) := by
  unfold augWr
  rw [wr_ok (by rw [h.1]; omega)]
  refine Ok.pure ⟨by simp [h.1], ?_⟩
  intro a b ha hb
  unfold updM
  by_cases e : a = i ∧ b = j
  · rw [if_pos e, e.1, e.2, List.getElem?_set_self (by rw [h.1]; omega)]
  · rw [if_neg e, List.getElem?_set_ne (by omega)]
    exact h.2 a b ha hb

/-- The augmented matrix. -/
def augM (A : Nat → Nat → α) (b : Nat → α) : Nat → Nat → α := fun i j => if j < 8 then A i j else b i

theorem augInit_ok (A : Nat → Nat → α) (b : Nat → α) : Ok (augInit A b) (RepM · (augM A b)) := by
  unfold augInit
  have wr1 : ∀ (s : Cells α) i j v, s.length = 80 → i < 8 → j < 9 →
      Ok (augWr s i j v) fun t => t.length = 80 ∧ t[i * 10 + j]? = some (some v) ∧
        ∀ k, k ≠ i * 10 + j → t[k]? = s[k]? := by
    intro s i j v hl hi hj
    unfold augWr
    rw [wr_ok (by rw [hl]; omega)]
    refine Ok.pure ⟨by simp [hl], List.getElem?_set_self (by rw [hl]; omega), ?_⟩
    intro k hk
    rw [List.getElem?_set_ne (by omega)]
  refine (forN_ok (fun n (s : Cells α) => s.length = 80 ∧ ∀ i j, i < n → j < 9 →
    s[i * 10 + j]? = some (some (augM A b i j))) ?_ ?_).mono ?_
  · exact ⟨by simp, fun i j hi => by omega⟩
  · intro n hn s hs
    refine Ok.bind (forN_ok (fun m (s : Cells α) => s.length = 80 ∧ (∀ i j, i < n → j < 9 →
      s[i * 10 + j]? = some (some (augM A b i j))) ∧ ∀ j, j < m → s[n * 10 + j]? = some (some (A n j))) ?_ ?_) ?_
    · exact ⟨hs.1, hs.2, fun j hj => by omega⟩
    · intro m hm s hs
      refine (wr1 s n m _ hs.1 hn (by omega)).mono ?_
      rintro t ⟨h1, h2, h3⟩
      refine ⟨h1, fun i j hi hj => ?_, fun j hj => ?_⟩
      · rw [h3 _ (by omega)]; exact hs.2.1 i j hi hj
      · by_cases e : j = m
        · rw [e, h2]
        · rw [h3 _ (by omega)]; exact hs.2.2 j (by omega)
    · intro s hs
      refine (wr1 s n 8 _ hs.1 hn (by omega)).mono ?_
      rintro t ⟨h1, h2, h3⟩
      refine ⟨h1, fun i j hi hj => ?_⟩
      by_cases e : i = n
      · subst e
        by_cases ej : j = 8
        · rw [ej, h2]; simp [augM]
        · rw [h3 _ (by omega), hs.2.2 j (by omega)]
          simp [augM, show j < 8 by omega]
      · rw [h3 _ (by omega)]; exact hs.2.1 i j (by omega) hj
  · rintro s ⟨h1, h2⟩
    exact ⟨h1, fun i j hi hj => h2 i j hi hj⟩

theorem pivotOf_ok {s : Cells α} {M : Nat → Nat → α} (h : RepM s M) {i : Nat} (hi : i < 8) :
    Ok (pivotOf R s i) fun m => i ≤ m.1 ∧ m.1 < 8 ∧ m.2 = R.abs (M m.1 i) := by
  unfold pivotOf forFrom
  rw [h.rd hi (by omega), ok_bind]
  refine (forN_ok (fun _ (m : Nat × α) => i ≤ m.1 ∧ m.1 < 8 ∧ m.2 = R.abs (M m.1 i)) ?_ ?_)
  · exact ⟨le_refl _, hi, rfl⟩
  · intro k hk m hm
    dsimp only
    rw [h.rd (i := i + 1 + k) (j := i) (by omega) (by omega), ok_bind]
    refine Ok.pure' ?_
    split
    · exact ⟨by dsimp only; omega, by dsimp only; omega, rfl⟩
    · exact hm

def swapM (M : Nat → Nat → α) (i m : Nat) : Nat → Nat → α :=
  fun a b => if a = i then M m b else if a = m then M i b else M a b

theorem swapM_self (M : Nat → Nat → α) (i : Nat) : swapM M i i = M := by
  funext a b
  unfold swapM
  split
  · rename_i e; rw [e]
  · rfl

theorem swapRows_ok {s : Cells α} {M : Nat → Nat → α} (h : RepM s M) {i m : Nat} (hi : i < 8) (hm : m < 8)
    (hne : m ≠ i) : Ok (swapRows s i m) (RepM · (swapM M i m)) := by
  unfold swapRows
  refine (forN_ok (fun n (s : Cells α) => RepM s fun a b => if b < n then swapM M i m a b else M a b) ?_ ?_).mono ?_
  · refine h.congr fun a b _ _ => ?_
    rw [if_neg (by omega)]
  · intro n hn s hs
    rw [hs.rd hi hn, ok_bind, hs.rd hm hn, ok_bind, if_neg (by omega), if_neg (by omega)]
    refine Ok.bind (hs.wr hi hn _) ?_
    intro t ht
    refine (ht.wr hm hn _).mono ?_
    intro u hu
    refine hu.congr fun a b _ _ => ?_
    unfold updM swapM
    by_cases eb : b = n
    · subst eb
      by_cases e1 : a = m
      · subst e1; simp [hne]
      · by_cases e2 : a = i
        · subst e2; simp [e1]
        · simp [e1, e2]
    · have : (b < n + 1) ↔ b < n := by omega
      simp [eb, this]
  · intro t ht
    refine ht.congr fun a b _ hb => ?_
    rw [if_pos hb]

/-- The matrix after eliminating column `i` with the factors `f`. -/
def elimM (R : Arith α) (f : Nat → α) (i : Nat) (M : Nat → Nat → α) : Nat → Nat → α :=
  fun a b => if i < a ∧ i ≤ b then R.sub (M a b) (R.mul (f a) (M i b)) else M a b

theorem eliminate_ok {s : Cells α} {M : Nat → Nat → α} (h : RepM s M) {i : Nat} (hi : i < 8)
    (hdiv : ∀ a, ∃ q, R.div a (M i i) = .ok q) :
    Ok (eliminate R s i) fun t => ∃ f, (∀ j, i < j → j < 8 → R.div (M j i) (M i i) = .ok (f j)) ∧
      RepM t (elimM R f i M) := by
  obtain ⟨f, hf⟩ : ∃ f : Nat → α, ∀ j, R.div (M j i) (M i i) = .ok (f j) :=
    ⟨fun j => (hdiv (M j i)).choose, fun j => (hdiv (M j i)).choose_spec⟩
  unfold eliminate forFrom
  refine (forN_ok (fun n (s : Cells α) => RepM s fun a b => if a < i + 1 + n then elimM R f i M a b else M a b)
    ?_ ?_).mono ?_
  · refine h.congr fun a b _ _ => ?_
    split
    · unfold elimM; rw [if_neg (by omega)]
    · rfl
  · intro n hn s hs
    have hj : i + 1 + n < 8 := by omega
    dsimp only
    rw [hs.rd (j := i) hj (by omega), ok_bind, hs.rd (j := i) hi (by omega), ok_bind, if_neg (by omega), if_pos (by omega)]
    have e0 : elimM R f i M i i = M i i := by unfold elimM; rw [if_neg (by omega)]
    rw [e0, hf, ok_bind]
    refine (forN_ok (fun k (s : Cells α) => RepM s fun a b =>
      if a < i + 1 + n ∨ (a = i + 1 + n ∧ b < i + k) then elimM R f i M a b else M a b) ?_ ?_).mono ?_
    · refine hs.congr fun a b _ _ => ?_
      by_cases e : a < i + 1 + n
      · simp [e]
      · rw [if_neg e]
        by_cases e2 : a < i + 1 + n ∨ (a = i + 1 + n ∧ b < i + 0)
        · rw [if_pos e2]; unfold elimM; rw [if_neg (by omega)]
        · rw [if_neg e2]
    · intro k hk s hs
      rw [hs.rd (j := i + k) hj (by omega), ok_bind, hs.rd (j := i + k) hi (by omega), ok_bind, if_neg (by omega),
        if_pos (by omega)]
      have e1 : elimM R f i M i (i + k) = M i (i + k) := by unfold elimM; rw [if_neg (by omega)]
      rw [e1]
      refine (hs.wr hj (by omega) _).mono ?_
      intro t ht
      refine ht.congr fun a b _ _ => ?_
      unfold updM
      by_cases e : a = i + 1 + n ∧ b = i + k
      · rw [if_pos e, if_pos (by omega), e.1, e.2]
        unfold elimM
        rw [if_pos (by omega)]
      · rw [if_neg e]
        dsimp only
        by_cases e2 : a < i + 1 + n ∨ (a = i + 1 + n ∧ b < i + k)
        · rw [if_pos e2, if_pos (by omega)]
        · rw [if_neg e2, if_neg (by omega)]
    · intro t ht
      refine ht.congr fun a b _ _ => ?_
      by_cases e : a < i + 1 + (n + 1)
      · rw [if_pos (by omega), if_pos e]
      · rw [if_neg (by omega), if_neg e]
  · intro t ht
    refine ⟨f, fun j _ _ => hf j, ht.congr fun a b _ _ => ?_⟩
    rw [if_pos (by omega)]

/-- Dividing by something that is not tiny is defined. -/
def DivOk (R : Arith α) : Prop :=
  ∀ a b, R.lt (R.abs b) (R.ofRat tiny10) = false → ∃ q, R.div a b = .ok q

theorem forward_ok {s : Cells α} {M : Nat → Nat → α} (hR : DivOk R) (h : RepM s M)
    (I : Nat → (Nat → Nat → α) → Prop) (h0 : I 0 M)
    (hstep : ∀ i M m f, i < 8 → I i M → i ≤ m → m < 8 →
      R.lt (R.abs (M m i)) (R.ofRat tiny10) = false →
      (∀ j, i < j → j < 8 → R.div (swapM M i m j i) (swapM M i m i i) = .ok (f j)) →
      I (i + 1) (elimM R f i (swapM M i m))) :
    Ok (forward R s) fun r => r.2 = true → ∃ M', RepM r.1 M' ∧ I 8 M' := by
  unfold forward
  refine (forBreak_ok (fun i (r : Cells α × Bool) => ∃ M', RepM r.1 M' ∧ I i M')
    (fun r => r.2 = false) ⟨M, h, h0⟩ ?_).mono ?_
  · rintro i - hi ⟨s, b⟩ ⟨M, hM, hI⟩
    have hi : i < 8 := by omega
    refine Ok.bind (pivotOf_ok hM hi) ?_
    rintro ⟨m, v⟩ ⟨hm1, hm2, hv⟩
    dsimp only at hm1 hm2 hv hM ⊢
    subst hv
    by_cases ht : R.lt (R.abs (M m i)) (R.ofRat tiny10) = true
    · rw [if_pos ht]
      exact Ok.pure' (by simp)
    · rw [if_neg ht]
      have ht' : R.lt (R.abs (M m i)) (R.ofRat tiny10) = false := by simpa using ht
      have e : swapM M i m i i = M m i := by simp [swapM]
      have rest : ∀ t, RepM t (swapM M i m) →
          Ok (eliminate R t i >>= fun s => (pure ((s, true), false) : CM ((Cells α × Bool) × Bool)))
            (fun r => if r.2 = true then r.1.2 = false else ∃ M', RepM r.1.1 M' ∧ I (i + 1) M') := by
        intro t ht2
        refine Ok.bind (eliminate_ok ht2 hi fun a => by rw [e]; exact hR _ _ ht') ?_
        rintro u ⟨f, hf, hu⟩
        refine Ok.pure' ?_
        simp only [Bool.false_eq_true, if_false]
        exact ⟨_, hu, hstep i M m f hi hI hm1 hm2 ht' hf⟩
      by_cases e : m ≠ i
      · rw [if_pos e]
        exact Ok.bind (swapRows_ok hM hi hm2 e) fun t ht => rest t ht
      · rw [if_neg e]
        have e : m = i := by simpa using e
        subst e
        rw [pure_bind']
        exact rest s (by rw [swapM_self]; exact hM)
  · rintro r (hr | hr) ht
    · rw [hr] at ht; cases ht
    · simpa using hr

/-- `b_i - Σ a_ij x_j` over `n` further columns, in the order of the code. -/
def backRow (R : Arith α) (M : Nat → Nat → α) (X : Nat → α) (i : Nat) : Nat → α
  | 0 => M i 8
  | n + 1 => R.sub (backRow R M X i n) (R.mul (M i (i + 1 + n)) (X (i + 1 + n)))

theorem backRow_congr {M : Nat → Nat → α} {X Y : Nat → α} {i : Nat} (h : ∀ j, i < j → X j = Y j) (n : Nat) :
    backRow R M X i n = backRow R M Y i n := by
  induction n with
  | zero => rfl
  | succ n ih => unfold backRow; rw [ih, h _ (by omega)]

/-- The unknowns from `lo` on have been computed. -/
def Solved (R : Arith α) (M : Nat → Nat → α) (lo : Nat) (x : Cells α) : Prop :=
  x.length = 8 ∧ ∃ X : Nat → α, ∀ i, lo ≤ i → i < 8 → x[i]? = some (some (X i)) ∧
    R.div (backRow R M X i (7 - i)) (M i i) = .ok (X i) ∧ R.isNan (X i) = false ∧ R.isInf (X i) = false

theorem backward_ok {s x : Cells α} {M : Nat → Nat → α} (hR : DivOk R) (h : RepM s M) (hx : x.length = 8) :
    Ok (backward R s x) fun r => r.2 = true → Solved R M 0 r.1 := by
  unfold backward
  have h0 : Nonempty α := ⟨M 0 0⟩
  refine (forBreak_ok (fun t (r : Cells α × Bool) => Solved R M (8 - t) r.1)
    (fun r => r.2 = false) ?_ ?_).mono ?_
  · exact ⟨hx, fun _ => Classical.choice h0, fun i h1 h2 => by omega⟩
  · rintro t - ht ⟨x, b⟩ ⟨hl, X, hX⟩
    obtain ⟨i, hi⟩ : ∃ i, i = 7 - t := ⟨_, rfl⟩
    dsimp only at hl hX ⊢
    rw [← hi]
    have hi8 : i < 8 := by omega
    rw [h.rd hi8 (by omega), ok_bind]
    by_cases hs : R.lt (R.abs (M i i)) (R.ofRat tiny10) = true
    · rw [if_pos hs]; exact Ok.pure' (by simp)
    · rw [if_neg hs, h.rd hi8 (by omega), ok_bind, wr_ok (by omega), ok_bind]
      unfold forFrom
      refine Ok.bind (forN_ok (fun n (x : Cells α) => x.length = 8 ∧ x[i]? = some (some (backRow R M X i n)) ∧
        ∀ j, i < j → j < 8 → x[j]? = some (some (X j))) ?_ ?_) ?_
      · refine ⟨by simp [hl], List.getElem?_set_self (by omega), fun j h1 h2 => ?_⟩
        rw [List.getElem?_set_ne (by omega)]
        exact (hX j (by omega) h2).1
      · rintro n hn y ⟨hy1, hy2, hy3⟩
        dsimp only
        rw [rd_ok hy2, ok_bind, h.rd hi8 (by omega), ok_bind, rd_ok (hy3 _ (by omega) (by omega)), ok_bind,
          wr_ok (by omega)]
        refine Ok.pure ⟨by simp [hy1], List.getElem?_set_self (by omega), fun j h1 h2 => ?_⟩
        rw [List.getElem?_set_ne (by omega)]
        exact hy3 j h1 h2
      · rintro y ⟨hy1, hy2, hy3⟩
        rw [rd_ok hy2, ok_bind]
        obtain ⟨q, hq⟩ := hR (backRow R M X i (8 - (i + 1))) (M i i) (by simpa using hs)
        rw [hq, ok_bind, wr_ok (by omega), ok_bind]
        by_cases hb : (R.isNan q || R.isInf q) = true
        · rw [if_pos hb]; exact Ok.pure' (by simp)
        · rw [if_neg hb]
          refine Ok.pure' ?_
          simp only [Bool.false_eq_true, if_false]
          have hb : R.isNan q = false ∧ R.isInf q = false := by simpa using hb
          obtain ⟨Y, hYi, hYj⟩ : ∃ Y : Nat → α, Y i = q ∧ ∀ j, j ≠ i → Y j = X j :=
            ⟨fun j => if j = i then q else X j, if_pos rfl, fun j hj => if_neg hj⟩
          refine ⟨by simp [hy1], Y, fun j h1 h2 => ?_⟩
          have hc : ∀ j, i ≤ j → ∀ n, backRow R M Y j n = backRow R M X j n :=
            fun j hj n => backRow_congr (fun k hk => hYj k (by omega)) n
          by_cases e : j = i
          · subst e
            refine ⟨?_, ?_, ?_⟩
            · rw [List.getElem?_set_self (by omega), hYi]
            · rw [hc _ (le_refl _), hYi, ← hq, show 8 - (j + 1) = 7 - j by omega]
            · rw [hYi]; exact hb
          · have hX' := hX j (by omega) h2
            refine ⟨?_, ?_, ?_⟩
            · rw [List.getElem?_set_ne (by omega), hYj j e]
              exact hy3 j (by omega) h2
            · rw [hc _ (by omega), hYj j e]
              exact hX'.2.1
            · rw [hYj j e]; exact hX'.2.2
  · rintro r (hr | hr) ht
    · rw [hr] at ht; cases ht
    · exact hr

theorem solve_ok {A : Nat → Nat → α} {b : Nat → α} {x : Cells α} (hR : DivOk R) (hx : x.length = 8)
    (I : Nat → (Nat → Nat → α) → Prop) (h0 : I 0 (augM A b))
    (hstep : ∀ i M m f, i < 8 → I i M → i ≤ m → m < 8 →
      R.lt (R.abs (M m i)) (R.ofRat tiny10) = false →
      (∀ j, i < j → j < 8 → R.div (swapM M i m j i) (swapM M i m i i) = .ok (f j)) →
      I (i + 1) (elimM R f i (swapM M i m))) :
    Ok (solve_linear_system R A b x) fun r => ∀ y, r = some y → ∃ M, I 8 M ∧ Solved R M 0 y := by
  unfold solve_linear_system
  refine Ok.bind (augInit_ok A b) ?_
  intro s hs
  refine Ok.bind (forward_ok hR hs I h0 hstep) ?_
  rintro ⟨t, f⟩ hf
  cases f with
  | false => exact Ok.pure' (by simp)
  | true =>
    obtain ⟨M, hM, hI⟩ := hf rfl
    simp only [if_true]
    refine Ok.bind (backward_ok hR hM hx) ?_
    rintro ⟨y, g⟩ hg
    refine Ok.pure' ?_
    intro z hz
    cases g with
    | false => cases hz
    | true =>
      simp only [if_true, Option.some.injEq] at hz
      subst hz
      exact ⟨M, hI, hg rfl⟩

end FlatCV
