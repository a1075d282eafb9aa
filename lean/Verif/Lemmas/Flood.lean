/-
The invariant of the watershed flooding.
-/
import Verif.Lemmas.Watershed
import Mathlib.Data.Finset.Card

namespace FlatCV
open Model Spec

/-! ### Walks -/

theorem Spec.Walk.mono {S T : Pix → Prop} {a b : Pix} (h : Walk S a b) (hST : ∀ p, S p → T p) :
    Walk T a b := by
  induction h with
  | refl => exact .refl
  | step _ ha hs ih => exact .step ih ha (hST _ hs)

theorem Spec.Walk.trans {S : Pix → Prop} {a b c : Pix} (h1 : Walk S a b) (h2 : Walk S b c) :
    Walk S a c := by
  induction h2 with
  | refl => exact h1
  | step _ ha hs ih => exact .step ih ha hs

/-- The grid is connected. -/
theorem grid_walk {w h : Nat} {a p : Pix} (ha : Inside w h a) (hp : Inside w h p) :
    Walk (Inside w h) a p := by
  obtain ⟨ax, ay⟩ := a
  obtain ⟨x, y⟩ := p
  obtain ⟨ha1, ha2⟩ := ha
  obtain ⟨hp1, hp2⟩ := hp
  simp only at ha1 ha2 hp1 hp2
  have up : ∀ n, ax + n < w → Walk (Inside w h) (ax, ay) (ax + n, ay) := by
    intro n
    induction n with
    | zero => intro _; exact .refl
    | succ n ih =>
      intro hn
      exact .step (ih (by omega)) (Or.inl ⟨rfl, Or.inl rfl⟩) ⟨hn, ha2⟩
  have down : ∀ n, n ≤ ax → Walk (Inside w h) (ax, ay) (ax - n, ay) := by
    intro n
    induction n with
    | zero => intro _; exact .refl
    | succ n ih =>
      intro hn
      exact .step (ih (by omega)) (Or.inl ⟨rfl, Or.inr (by simp only; omega)⟩)
        ⟨by simp only; omega, ha2⟩
  have row : Walk (Inside w h) (ax, ay) (x, ay) := by
    rcases Nat.le_total ax x with hle | hle
    · have := up (x - ax) (by omega)
      rwa [Nat.add_sub_cancel' hle] at this
    · have := down (ax - x) (by omega)
      rwa [Nat.sub_sub_self hle] at this
  have up' : ∀ n, ay + n < h → Walk (Inside w h) (x, ay) (x, ay + n) := by
    intro n
    induction n with
    | zero => intro _; exact .refl
    | succ n ih =>
      intro hn
      exact .step (ih (by omega)) (Or.inr ⟨rfl, Or.inl rfl⟩) ⟨hp1, hn⟩
  have down' : ∀ n, n ≤ ay → Walk (Inside w h) (x, ay) (x, ay - n) := by
    intro n
    induction n with
    | zero => intro _; exact .refl
    | succ n ih =>
      intro hn
      exact .step (ih (by omega)) (Or.inr ⟨rfl, Or.inr (by simp only; omega)⟩)
        ⟨hp1, by simp only; omega⟩
  have col : Walk (Inside w h) (x, ay) (x, y) := by
    rcases Nat.le_total ay y with hle | hle
    · have := up' (y - ay) (by omega)
      rwa [Nat.add_sub_cancel' hle] at this
    · have := down' (ay - y) (by omega)
      rwa [Nat.sub_sub_self hle] at this
  exact row.trans col

/-! ### Labels of pixels -/

/-- Label of a pixel. -/
def lp (w : Nat) (lab : List Int) (p : Pix) : Int := gl lab (p.2 * w + p.1)

theorem nbs_sound {w h x y : Nat} {lab : List Int} {a : Int} (hx : x < w) (hy : y < h)
    (ha : a ∈ nbs w h lab x y) (hne : a ≠ -1) :
    ∃ q, Inside w h q ∧ Adj4 q (x, y) ∧ lp w lab q = a := by
  unfold nbs at ha
  simp only [List.mem_cons, List.not_mem_nil, or_false] at ha
  rcases ha with ha | ha | ha | ha
  · split at ha
    · exact ⟨(x - 1, y), ⟨by simp only; omega, hy⟩, Or.inl ⟨rfl, Or.inl (by simp only; omega)⟩, ha.symm⟩
    · exact absurd ha hne
  · split at ha
    · exact ⟨(x + 1, y), ⟨by simp only; omega, hy⟩, Or.inl ⟨rfl, Or.inr (by simp only)⟩, ha.symm⟩
    · exact absurd ha hne
  · split at ha
    · exact ⟨(x, y - 1), ⟨hx, by simp only; omega⟩, Or.inr ⟨rfl, Or.inl (by simp only; omega)⟩, ha.symm⟩
    · exact absurd ha hne
  · split at ha
    · exact ⟨(x, y + 1), ⟨hx, by simp only; omega⟩, Or.inr ⟨rfl, Or.inr (by simp only)⟩, ha.symm⟩
    · exact absurd ha hne

theorem nbs_complete {w h x y : Nat} {lab : List Int} {q : Pix} (hq : Inside w h q)
    (ha : Adj4 q (x, y)) : lp w lab q ∈ nbs w h lab x y := by
  obtain ⟨qx, qy⟩ := q
  obtain ⟨h1, h2⟩ := hq
  unfold nbs lp
  simp only [Adj4] at ha h1 h2 ⊢
  simp only [List.mem_cons, List.not_mem_nil, or_false]
  rcases ha with ⟨e, ha | ha⟩ | ⟨e, ha | ha⟩
  · subst e ha
    left; rw [if_pos (by omega)]; rfl
  · subst e
    right; left; rw [if_pos (by omega), ha]
  · subst e ha
    right; right; left; rw [if_pos (by omega)]; rfl
  · subst e
    right; right; right; rw [if_pos (by omega), ha]

/-! ### One expansion -/

section exp
variable {w h : Nat} {d : List UInt8} {bd : Bool} {lvl : Nat} {lab : List Int}

theorem elev_px1 {p : Pix} : elev w d p = (px1 1 d (p.2 * w + p.1) 0).toNat := by
  unfold elev px px1; rfl

theorem wsExp_some {p : Pix} (hp : Inside w h p) {it : QueueItem}
    (he : wsExp w h d bd lvl lab (p.2 * w + p.1) = some it) :
    lp w lab p = -1 ∧ elev w d p ≤ lvl ∧ it.label ≠ -1 ∧ it.x = (p.1 : Nat) ∧ it.y = (p.2 : Nat) ∧
    ∃ q, Inside w h q ∧ Adj4 q p ∧ lp w lab q = it.label := by
  obtain ⟨x, y⟩ := p
  obtain ⟨hx, hy⟩ := hp
  simp only at hx hy he ⊢
  unfold wsExp at he
  split at he
  · cases he
  · rename_i h1
    split at he
    · cases he
    · rename_i h2
      rw [idx_mod hx, idx_div hx] at he
      dsimp only at he
      split at he
      · rename_i h3
        simp only [Option.some.injEq] at he
        obtain ⟨_, _, f3, _, _⟩ := scan_facts (nbs w h lab x y) (-1)
        subst he
        refine ⟨not_not.1 h1, by rw [elev_px1]; exact not_not.1 h2, h3.1, rfl, rfl, ?_⟩
        exact nbs_sound hx hy (f3 h3.1) h3.1
      · cases he

theorem wsExp_none_off {p : Pix} (hp : Inside w h p) (he : wsExp w h d false lvl lab (p.2 * w + p.1) = none)
    (hl : lp w lab p = -1) (hv : elev w d p ≤ lvl) {q : Pix} (hq : Inside w h q) (ha : Adj4 q p) :
    lp w lab q = -1 := by
  obtain ⟨x, y⟩ := p
  obtain ⟨hx, hy⟩ := hp
  simp only at hx hy he hl ⊢
  rw [elev_px1] at hv
  unfold wsExp at he
  unfold lp at hl
  rw [if_neg (not_not.2 hl), if_neg (not_not.2 hv), idx_mod hx, idx_div hx] at he
  dsimp only at he
  split at he
  · cases he
  · rename_i h3
    obtain ⟨_, f2, _, _, _⟩ := scan_facts (nbs w h lab x y) (-1)
    have : (scanS nbStep (-1, false) (nbs w h lab x y)).1 = -1 := by
      by_contra hne; exact h3 ⟨hne, Or.inr rfl⟩
    exact f2 this _ (nbs_complete hq ha)

theorem wsExp_none_on {p : Pix} (hp : Inside w h p) (he : wsExp w h d bd lvl lab (p.2 * w + p.1) = none)
    (hl : lp w lab p = -1) (hv : elev w d p ≤ lvl) {q : Pix} (hq : Inside w h q) (ha : Adj4 q p)
    (hne : lp w lab q ≠ -1) :
    ∃ q', Inside w h q' ∧ Adj4 q' p ∧ lp w lab q' ≠ -1 ∧ lp w lab q' ≠ lp w lab q := by
  obtain ⟨x, y⟩ := p
  obtain ⟨hx, hy⟩ := hp
  simp only at hx hy he hl ⊢
  rw [elev_px1] at hv
  unfold wsExp at he
  unfold lp at hl
  rw [if_neg (not_not.2 hl), if_neg (not_not.2 hv), idx_mod hx, idx_div hx] at he
  dsimp only at he
  split at he
  · cases he
  · rename_i h3
    obtain ⟨_, f2, f3, f4, f5⟩ := scan_facts (nbs w h lab x y) (-1)
    have hm := nbs_complete (lab := lab) hq ha
    have h1 : (scanS nbStep (-1, false) (nbs w h lab x y)).1 ≠ -1 := by
      intro e; exact hne (f2 e _ hm)
    have h2 : (scanS nbStep (-1, false) (nbs w h lab x y)).2 = true := by
      by_contra hc; exact h3 ⟨h1, Or.inl (by simpa using hc)⟩
    obtain ⟨a, ham, ha1, ha2⟩ := f4 h2
    by_cases e : a = lp w lab q
    · obtain ⟨q', g1, g2, g3⟩ := nbs_sound hx hy (f3 h1) h1
      exact ⟨q', g1, g2, by rw [g3]; exact h1, by rw [g3, ← e]; exact fun h => ha2 h.symm⟩
    · obtain ⟨q', g1, g2, g3⟩ := nbs_sound hx hy ham ha1
      exact ⟨q', g1, g2, by rw [g3]; exact ha1, by rw [g3]; exact e⟩

end exp

/-! ### Applying a list of items -/

theorem gl_applyAll {w : Nat} {lab : List Int} {l : List QueueItem}
    (hi : ∀ it ∈ l, itIdx w it < lab.length) (j : Nat) :
    (∃ it ∈ l, itIdx w it = j ∧ gl (applyAll w lab l) j = it.label) ∨
    ((∀ it ∈ l, itIdx w it ≠ j) ∧ gl (applyAll w lab l) j = gl lab j) := by
  induction l generalizing lab with
  | nil => exact Or.inr ⟨by simp, rfl⟩
  | cons a t ih =>
    have e : applyAll w lab (a :: t) = applyAll w (lab.set (itIdx w a) a.label) t := rfl
    rw [e]
    have ha := hi a (by simp)
    rcases ih (lab := lab.set (itIdx w a) a.label) (fun it h => by
      simpa using hi it (by simp [h])) with ⟨it, h1, h2, h3⟩ | ⟨h1, h2⟩
    · exact Or.inl ⟨it, by simp [h1], h2, h3⟩
    · rw [gl_set ha] at h2
      by_cases hj : itIdx w a = j
      · rw [if_pos hj] at h2
        exact Or.inl ⟨a, by simp, hj, h2⟩
      · rw [if_neg hj] at h2
        refine Or.inr ⟨?_, h2⟩
        intro it hit
        rcases List.mem_cons.1 hit with rfl | hit
        · exact hj
        · exact h1 it hit

/-- A pixel that is hit gets the same label whatever was there before. -/
theorem gl_applyAll_hit {w : Nat} {lab lab' : List Int} {l : List QueueItem}
    (hi : ∀ it ∈ l, itIdx w it < lab.length) (hl : lab.length = lab'.length) {j : Nat}
    (hj : ∃ it ∈ l, itIdx w it = j) : gl (applyAll w lab l) j = gl (applyAll w lab' l) j := by
  induction l generalizing lab lab' with
  | nil => simp at hj
  | cons a t ih =>
    have e : ∀ lab, applyAll w lab (a :: t) = applyAll w (lab.set (itIdx w a) a.label) t :=
      fun _ => rfl
    rw [e, e]
    have ha := hi a (by simp)
    by_cases ht : ∃ it ∈ t, itIdx w it = j
    · exact ih (fun it h => by simpa using hi it (by simp [h])) (by simpa using hl) ht
    · obtain ⟨it, hit, rfl⟩ := hj
      have hit' : it = a := by
        rcases List.mem_cons.1 hit with h | h
        · exact h
        · exact absurd ⟨it, h, rfl⟩ ht
      subst hit'
      have h1 := gl_applyAll (w := w) (lab := lab.set (itIdx w it) it.label) (l := t)
        (fun i h => by simpa using hi i (by simp [h])) (itIdx w it)
      have h2 := gl_applyAll (w := w) (lab := lab'.set (itIdx w it) it.label) (l := t)
        (fun i h => by simpa [← hl] using hi i (by simp [h])) (itIdx w it)
      rcases h1 with ⟨i, hi1, hi2, _⟩ | ⟨_, h1⟩
      · exact absurd ⟨i, hi1, hi2⟩ ht
      rcases h2 with ⟨i, hi1, hi2, _⟩ | ⟨_, h2⟩
      · exact absurd ⟨i, hi1, hi2⟩ ht
      rw [h1, h2, gl_set ha, gl_set (by omega), if_pos rfl, if_pos rfl]

theorem applyAll_append (w : Nat) (lab : List Int) (l l' : List QueueItem) :
    applyAll w lab (l ++ l') = applyAll w (applyAll w lab l) l' := List.foldl_append

theorem itIdx_of {w h : Nat} {it : QueueItem} (hi : ItemIn w h it) :
    ∃ p, Inside w h p ∧ itIdx w it = p.2 * w + p.1 := by
  obtain ⟨x, y, hx, hy, ex, ey⟩ := hi
  exact ⟨(x, y), ⟨hx, hy⟩, by unfold itIdx; rw [ex, ey]; rfl⟩

theorem pix_inj {w h : Nat} {p q : Pix} (hp : Inside w h p) (hq : Inside w h q)
    (e : p.2 * w + p.1 = q.2 * w + q.1) : p = q := by
  have h1 := congrArg (· % w) e
  have h2 := congrArg (· / w) e
  simp only [idx_mod hp.1, idx_mod hq.1, idx_div hp.1, idx_div hq.1] at h1 h2
  exact Prod.ext h1 h2

theorem pix_lt {w h : Nat} {p : Pix} (hp : Inside w h p) : p.2 * w + p.1 < w * h := idx_lt hp.1 hp.2

/-! ### The invariant -/

/-- Label of marker `k`. -/
def lbl (k : Nat) : Int := i32OfU32 k

theorem lbl_ne {k : Nat} (h : k < 4294967295) : lbl k ≠ -1 := by
  unfold lbl i32OfU32
  split <;> omega

/-- The queue entry of marker `k`. -/
def mitem (pos : Nat → Pix) (k : Nat) : QueueItem := ⟨((pos k).1 : Nat), ((pos k).2 : Nat), lbl k⟩

/-- The queue entries of all markers. -/
def mlist (pos : Nat → Pix) (N : Nat) : List QueueItem := (List.range N).map (mitem pos)

/-- Invariant between rounds at level `lvl` (all lower levels are finished). -/
structure FInv (w h : Nat) (d : List UInt8) (bd : Bool) (N : Nat) (pos : Nat → Pix) (lvl : Nat)
    (lab : List Int) : Prop where
  len : lab.length = w * h
  mark : ∀ k, k < N → ∃ k', k' < N ∧ pos k' = pos k ∧ lp w lab (pos k) = lbl k'
  grown : ∀ p, Inside w h p → lp w lab p ≠ -1 → ∃ k l, k < N ∧ l ≤ lvl ∧ lp w lab p = lbl k ∧
    lp w lab (pos k) = lbl k ∧
    Walk (fun q => Inside w h q ∧ lp w lab q = lbl k ∧ elev w d q ≤ l) (pos k) p ∧
    (bd = false → ∀ k' l', k' < N → Reaches w h d l' (pos k') p → l ≤ l')
  done : bd = false → ∀ l' k' p, l' < lvl → k' < N → Reaches w h d l' (pos k') p → lp w lab p ≠ -1

/-- One full round, started with an empty queue. -/
def grow (w h : Nat) (d : List UInt8) (bd : Bool) (lvl : Nat) (lab : List Int) : List Int :=
  applyAll w lab (wsExps w h d bd lvl lab (w * h))

section inv
variable {w h : Nat} {d : List UInt8} {bd : Bool} {N : Nat} {pos : Nat → Pix} {lvl : Nat}
  {lab : List Int}

theorem wsExps_mem {it : QueueItem} (hw : 0 < w) (hm : it ∈ wsExps w h d bd lvl lab (w * h)) :
    ∃ p, Inside w h p ∧ wsExp w h d bd lvl lab (p.2 * w + p.1) = some it ∧
      itIdx w it = p.2 * w + p.1 := by
  unfold wsExps at hm
  rw [List.mem_filterMap] at hm
  obtain ⟨i, hi, he⟩ := hm
  rw [List.mem_range] at hi
  have hp : Inside w h (i % w, i / w) :=
    ⟨Nat.mod_lt _ hw, (Nat.div_lt_iff_lt_mul hw).2 (by rwa [Nat.mul_comm] at hi)⟩
  have hidx : i / w * w + i % w = i := by rw [Nat.mul_comm]; exact Nat.div_add_mod i w
  refine ⟨(i % w, i / w), hp, by simp only [hidx]; exact he, ?_⟩
  obtain ⟨_, _, _, ex, ey, _⟩ := wsExp_some hp (by simp only [hidx]; exact he)
  unfold itIdx
  rw [ex, ey, Int.toNat_natCast, Int.toNat_natCast]

theorem wsExps_item {it : QueueItem} (hw : 0 < w) (hm : it ∈ wsExps w h d bd lvl lab (w * h)) :
    ItemIn w h it := by
  obtain ⟨p, hp, he, _⟩ := wsExps_mem hw hm
  obtain ⟨_, _, _, ex, ey, _⟩ := wsExp_some hp he
  exact ⟨p.1, p.2, hp.1, hp.2, ex, ey⟩

theorem wsExps_nil {p : Pix} (hp : Inside w h p) (he : wsExps w h d bd lvl lab (w * h) = []) :
    wsExp w h d bd lvl lab (p.2 * w + p.1) = none := by
  unfold wsExps at he
  rw [List.filterMap_eq_nil_iff] at he
  exact he _ (List.mem_range.2 (pix_lt hp))

/-- Applying some of the expansions: every pixel keeps its label, except that unlabelled pixels
may get one from a neighbour. -/
theorem apply_some {es : List QueueItem} (hw : 0 < w) (hl : lab.length = w * h)
    (hes : ∀ it ∈ es, it ∈ wsExps w h d bd lvl lab (w * h)) {p : Pix} (hp : Inside w h p) :
    lp w (applyAll w lab es) p = lp w lab p ∨
    (lp w lab p = -1 ∧ elev w d p ≤ lvl ∧ lp w (applyAll w lab es) p ≠ -1 ∧
      ∃ q, Inside w h q ∧ Adj4 q p ∧ lp w lab q = lp w (applyAll w lab es) p) := by
  have hin : ∀ it ∈ es, itIdx w it < lab.length := by
    intro it hit
    obtain ⟨p, hp, _, e⟩ := wsExps_mem hw (hes it hit)
    rw [e, hl]; exact pix_lt hp
  rcases gl_applyAll hin (p.2 * w + p.1) with ⟨it, h1, h2, h3⟩ | ⟨_, h2⟩
  · obtain ⟨p', hp', he, hi⟩ := wsExps_mem hw (hes it h1)
    obtain rfl : p' = p := pix_inj hp' hp (hi.symm.trans h2)
    obtain ⟨g1, g2, g3, _, _, q, q1, q2, q3⟩ := wsExp_some hp' he
    right
    unfold lp at *
    exact ⟨g1, g2, by rw [h3]; exact g3, q, q1, q2, by rw [h3]; exact q3⟩
  · exact Or.inl h2

theorem apply_keeps {es : List QueueItem} (hw : 0 < w) (hl : lab.length = w * h)
    (hes : ∀ it ∈ es, it ∈ wsExps w h d bd lvl lab (w * h)) {p : Pix} (hp : Inside w h p)
    (hne : lp w lab p ≠ -1) : lp w (applyAll w lab es) p = lp w lab p := by
  rcases apply_some hw hl hes hp with h | h
  · exact h
  · exact absurd h.1 hne

/-- Every pixel with a pending expansion is labelled afterwards. -/
theorem grow_hit (hw : 0 < w) (hl : lab.length = w * h) {it : QueueItem}
    (hm : it ∈ wsExps w h d bd lvl lab (w * h)) :
    gl lab (itIdx w it) = -1 ∧ gl (grow w h d bd lvl lab) (itIdx w it) ≠ -1 := by
  obtain ⟨p, hp, he, e⟩ := wsExps_mem hw hm
  obtain ⟨g1, _⟩ := wsExp_some hp he
  have hin : ∀ it ∈ wsExps w h d bd lvl lab (w * h), itIdx w it < lab.length := by
    intro it hit
    obtain ⟨p, hp, _, e⟩ := wsExps_mem hw hit
    rw [e, hl]; exact pix_lt hp
  refine ⟨by rw [e]; exact g1, ?_⟩
  unfold grow
  rcases gl_applyAll hin (itIdx w it) with ⟨it', h1, h2, h3⟩ | ⟨h1, _⟩
  · obtain ⟨p', hp', he', _⟩ := wsExps_mem hw h1
    obtain ⟨_, _, g3, _⟩ := wsExp_some hp' he'
    rw [h3]; exact g3
  · exact absurd rfl (h1 it hm)

theorem FInv.grow (hw : 0 < w) (hpos : ∀ k, k < N → Inside w h (pos k)) (hN : N < 4294967296)
    (hI : FInv w h d bd N pos lvl lab) : FInv w h d bd N pos lvl (grow w h d bd lvl lab) := by
  have keep : ∀ {p : Pix}, Inside w h p → lp w lab p ≠ -1 →
      lp w (FlatCV.grow w h d bd lvl lab) p = lp w lab p :=
    fun hp hne => apply_keeps hw hI.len (fun _ h => h) hp hne
  have kw : ∀ {k l a p}, k < N → Walk (fun q => Inside w h q ∧ lp w lab q = lbl k ∧ elev w d q ≤ l) a p →
      Walk (fun q => Inside w h q ∧ lp w (FlatCV.grow w h d bd lvl lab) q = lbl k ∧ elev w d q ≤ l) a p := by
    intro k l a p hk hwk
    refine hwk.mono ?_
    rintro q ⟨q1, q2, q3⟩
    exact ⟨q1, (keep q1 (by rw [q2]; exact lbl_ne (by omega))).trans q2, q3⟩
  refine ⟨(applyAll_length ..).trans hI.len, ?_, ?_, ?_⟩
  · intro k hk
    obtain ⟨k', h1, h2, h3⟩ := hI.mark k hk
    exact ⟨k', h1, h2, (keep (hpos k hk) (by rw [h3]; exact lbl_ne (by omega))).trans h3⟩
  · intro p hp hne
    rcases apply_some (es := wsExps w h d bd lvl lab (w * h)) hw hI.len (fun _ h => h) hp with
      hs | ⟨s1, s2, s3, q, q1, q2, q3⟩
    · have hne' : lp w lab p ≠ -1 := by
        unfold FlatCV.grow at hne; rw [hs] at hne; exact hne
      obtain ⟨k, l, hk, hl, e1, e2, hwk, hmin⟩ := hI.grown p hp hne'
      refine ⟨k, l, hk, hl, (keep hp hne').trans e1, ?_, kw hk hwk, hmin⟩
      exact (keep (hpos k hk) (by rw [e2]; exact lbl_ne (by omega))).trans e2
    · have hqne : lp w lab q ≠ -1 := by rw [q3]; exact s3
      obtain ⟨k, l, hk, hl, e1, e2, hwk, hmin⟩ := hI.grown q q1 hqne
      have ep : lp w (FlatCV.grow w h d bd lvl lab) p = lbl k := by
        unfold FlatCV.grow; rw [← q3, e1]
      refine ⟨k, lvl, hk, le_refl _, ep, ?_, ?_, ?_⟩
      · exact (keep (hpos k hk) (by rw [e2]; exact lbl_ne (by omega))).trans e2
      · refine .step ((kw hk hwk).mono ?_) q2 ⟨hp, ep, s2⟩
        rintro r ⟨r1, r2, r3⟩
        exact ⟨r1, r2, by omega⟩
      · intro hb k' l' hk' hr
        by_contra hlt
        exact hI.done hb l' k' p (by omega) hk' hr s1
  · intro hb l' k' p hl' hk' hr
    have h1 := hI.done hb l' k' p hl' hk' hr
    have hp : Inside w h p := by
      cases hr with
      | refl => exact hpos k' hk'
      | step _ _ hs => exact hs.1
    rw [keep hp h1]; exact h1

/-- When nothing can be added any more the level is finished. -/
theorem complete_level {lab0 : List Int} (hpos : ∀ k, k < N → Inside w h (pos k))
    (hm : ∀ k, k < N → lp w lab0 (pos k) ≠ -1)
    (he : wsExps w h d false lvl lab0 (w * h) = []) {k l' : Nat} {p : Pix} (hk : k < N)
    (hl : l' ≤ lvl) (hr : Reaches w h d l' (pos k) p) : lp w lab0 p ≠ -1 := by
  unfold Reaches at hr
  induction hr with
  | refl => exact hm k hk
  | step hw' ha hs ih =>
    rename_i b c
    have hb : Inside w h b := by
      cases hw' with
      | refl => exact hpos k hk
      | step _ _ hs => exact hs.1
    intro hc
    exact ih (wsExp_none_off hs.1 (wsExps_nil hs.1 he) hc (hs.2.trans hl) hb ha)

theorem FInv.next (hpos : ∀ k, k < N → Inside w h (pos k)) (hN : N < 4294967296)
    (hI : FInv w h d bd N pos lvl lab) (he : bd = false → wsExps w h d false lvl lab (w * h) = []) :
    FInv w h d bd N pos (lvl + 1) lab := by
  refine ⟨hI.len, hI.mark, ?_, ?_⟩
  · intro p hp hne
    obtain ⟨k, l, hk, hl, r⟩ := hI.grown p hp hne
    exact ⟨k, l, hk, by omega, r⟩
  · intro hb l' k' p hl' hk' hr
    refine complete_level hpos (fun k hk => ?_) (he hb) hk' (by omega) hr
    obtain ⟨k'', h1, _, h3⟩ := hI.mark k hk
    rw [h3]; exact lbl_ne (by omega)

/-! ### Termination measure -/

/-- Number of unlabelled pixels. -/
def unlab (n : Nat) (lab : List Int) : Nat := ((Finset.range n).filter fun i => gl lab i = -1).card

theorem unlab_le (n : Nat) (lab : List Int) : unlab n lab ≤ n := by
  unfold unlab
  exact (Finset.card_filter_le _ _).trans (by simp)

theorem unlab_grow (hw : 0 < w) (hl : lab.length = w * h)
    (hne : wsExps w h d bd lvl lab (w * h) ≠ []) :
    unlab (w * h) (grow w h d bd lvl lab) < unlab (w * h) lab := by
  obtain ⟨it, hit⟩ := List.exists_mem_of_ne_nil _ hne
  unfold unlab
  apply Finset.card_lt_card
  rw [Finset.ssubset_iff_of_subset]
  · obtain ⟨h1, h2⟩ := grow_hit hw hl hit
    obtain ⟨p, hp, _, e⟩ := wsExps_mem hw hit
    refine ⟨itIdx w it, ?_, ?_⟩
    · rw [Finset.mem_filter, Finset.mem_range, e]
      exact ⟨pix_lt hp, by rw [← e]; exact h1⟩
    · rw [Finset.mem_filter]
      exact fun h => h2 h.2
  · intro i hi
    rw [Finset.mem_filter, Finset.mem_range] at hi ⊢
    refine ⟨hi.1, ?_⟩
    by_contra hc
    have hp : Inside w h (i % w, i / w) :=
      ⟨Nat.mod_lt _ hw, (Nat.div_lt_iff_lt_mul hw).2 (by rw [Nat.mul_comm h w]; exact hi.1)⟩
    have hidx : i / w * w + i % w = i := by rw [Nat.mul_comm]; exact Nat.div_add_mod i w
    have := apply_keeps (es := wsExps w h d bd lvl lab (w * h)) hw hl (fun _ h => h) hp
      (by unfold lp; simp only [hidx]; exact hc)
    unfold lp at this
    simp only [hidx] at this
    exact hc (this.symm.trans hi.2)

end inv

/-! ### The first round -/

section first
variable {w h : Nat} {d : List UInt8} {bd : Bool} {N : Nat} {pos : Nat → Pix}

theorem mlist_idx (hpos : ∀ k, k < N → Inside w h (pos k)) {it : QueueItem}
    (hm : it ∈ mlist pos N) :
    ∃ k, k < N ∧ it = mitem pos k ∧ itIdx w it = (pos k).2 * w + (pos k).1 ∧ ItemIn w h it := by
  unfold mlist at hm
  rw [List.mem_map] at hm
  obtain ⟨k, hk, rfl⟩ := hm
  rw [List.mem_range] at hk
  refine ⟨k, hk, rfl, rfl, (pos k).1, (pos k).2, (hpos k hk).1, (hpos k hk).2, rfl, rfl⟩

/-- Labels right after the markers have been placed. -/
def lab0 (w h : Nat) (pos : Nat → Pix) (N : Nat) : List Int :=
  applyAll w (List.replicate (w * h) (-1)) (mlist pos N)

theorem lab0_len : (lab0 w h pos N).length = w * h := by
  unfold lab0; rw [applyAll_length]; simp

/-- A list of marker entries gives each pixel it touches the label of a marker there, and leaves
the others alone. -/
theorem apply_markers (hpos : ∀ k, k < N → Inside w h (pos k)) {lab : List Int}
    (hl : lab.length = w * h) {l : List QueueItem} (hsub : ∀ it ∈ l, it ∈ mlist pos N)
    {p : Pix} (hp : Inside w h p) :
    (∃ k, k < N ∧ pos k = p ∧ mitem pos k ∈ l ∧ lp w (applyAll w lab l) p = lbl k) ∨
    ((∀ k, k < N → mitem pos k ∈ l → pos k ≠ p) ∧ lp w (applyAll w lab l) p = lp w lab p) := by
  have hin : ∀ it ∈ l, itIdx w it < lab.length := by
    intro it hit
    obtain ⟨k, hk, _, e, _⟩ := mlist_idx hpos (hsub it hit)
    rw [e, hl]; exact pix_lt (hpos k hk)
  rcases gl_applyAll hin (p.2 * w + p.1) with ⟨it, h1, h2, h3⟩ | ⟨h1, h2⟩
  · obtain ⟨k, hk, rfl, e, _⟩ := mlist_idx hpos (hsub it h1)
    exact Or.inl ⟨k, hk, pix_inj (hpos k hk) hp (e.symm.trans h2), h1, h3⟩
  · refine Or.inr ⟨?_, h2⟩
    intro k hk hm e
    obtain ⟨k', hk', e1, e2, _⟩ := mlist_idx hpos (hsub _ hm)
    refine h1 _ hm ?_
    rw [← e]
    rfl

theorem mitem_mem {k : Nat} (hk : k < N) : mitem pos k ∈ mlist pos N := by
  unfold mlist
  exact List.mem_map.2 ⟨k, List.mem_range.2 hk, rfl⟩

theorem lp_replicate {p : Pix} : lp w (List.replicate (w * h) (-1)) p = -1 := by
  unfold lp gl
  rw [List.getElem?_replicate]
  split <;> rfl

theorem lab0_marker (hpos : ∀ k, k < N → Inside w h (pos k)) {k : Nat} (hk : k < N) :
    ∃ k', k' < N ∧ pos k' = pos k ∧ lp w (lab0 w h pos N) (pos k) = lbl k' := by
  rcases apply_markers (lab := List.replicate (w * h) (-1)) hpos (by simp) (fun _ h => h)
    (hpos k hk) with ⟨k', h1, h2, _, h3⟩ | ⟨h1, _⟩
  · exact ⟨k', h1, h2, h3⟩
  · exact absurd rfl (h1 k hk (mitem_mem hk))

theorem lab0_other (hpos : ∀ k, k < N → Inside w h (pos k)) {p : Pix} (hp : Inside w h p)
    (hne : lp w (lab0 w h pos N) p ≠ -1) : ∃ k, k < N ∧ pos k = p := by
  rcases apply_markers (lab := List.replicate (w * h) (-1)) hpos (by simp) (fun _ h => h)
    hp with ⟨k', h1, h2, _, _⟩ | ⟨_, h2⟩
  · exact ⟨k', h1, h2⟩
  · exact absurd (h2.trans lp_replicate) hne

/-- Placing the markers a second time changes nothing. -/
theorem lab0_again (hpos : ∀ k, k < N → Inside w h (pos k)) :
    applyAll w (lab0 w h pos N) (mlist pos N) = lab0 w h pos N := by
  have hin : ∀ it ∈ mlist pos N, itIdx w it < w * h := by
    intro it hit
    obtain ⟨k, hk, _, e, _⟩ := mlist_idx hpos hit
    rw [e]; exact pix_lt (hpos k hk)
  apply List.ext_getElem?
  intro j
  by_cases hj : j < w * h
  · have l1 : (applyAll w (lab0 w h pos N) (mlist pos N)).length = w * h := by
      rw [applyAll_length, lab0_len]
    rw [gl_some (by omega), gl_some (by rw [lab0_len]; exact hj)]
    congr 1
    rcases gl_applyAll (lab := lab0 w h pos N) (by rw [lab0_len]; exact hin) j with
      ⟨it, h1, h2, _⟩ | ⟨_, h2⟩
    · exact gl_applyAll_hit (by rw [lab0_len]; exact hin) (by rw [lab0_len]; simp) ⟨it, h1, h2⟩
    · exact h2
  · rw [List.getElem?_eq_none, List.getElem?_eq_none]
    · rw [lab0_len]; omega
    · rw [applyAll_length, lab0_len]; omega

/-- Labels after the first round, in which the markers are still in the queue. -/
def lab1 (w h : Nat) (d : List UInt8) (bd : Bool) (pos : Nat → Pix) (N : Nat) : List Int :=
  applyAll w (lab0 w h pos N) (qpushAll (w * h) ((mlist pos N).take (w * h))
    (wsExps w h d bd 0 (lab0 w h pos N) (w * h)))

theorem lab1_len : (lab1 w h d bd pos N).length = w * h := by
  unfold lab1; rw [applyAll_length, lab0_len]

theorem mlist_length : (mlist pos N).length = N := by simp [mlist]

/-- Either all markers fitted into the queue, and `lab1` adds some expansions to `lab0`; or the
queue was full, and `lab1` only relabels marker pixels. -/
theorem lab1_cases (hpos : ∀ k, k < N → Inside w h (pos k)) :
    (∃ es, (∀ it ∈ es, it ∈ wsExps w h d bd 0 (lab0 w h pos N) (w * h)) ∧
      lab1 w h d bd pos N = applyAll w (lab0 w h pos N) es) ∨
    lab1 w h d bd pos N = applyAll w (lab0 w h pos N) ((mlist pos N).take (w * h)) := by
  unfold lab1 qpushAll
  by_cases hN : N ≤ w * h
  · left
    refine ⟨(wsExps w h d bd 0 (lab0 w h pos N) (w * h)).take
      (w * h - ((mlist pos N).take (w * h)).length), fun it hit => List.mem_of_mem_take hit, ?_⟩
    rw [applyAll_append, List.take_of_length_le (l := mlist pos N) (by rw [mlist_length]; exact hN),
      lab0_again hpos]
  · right
    have : w * h - ((mlist pos N).take (w * h)).length = 0 := by
      rw [List.length_take, mlist_length]; omega
    rw [this, List.take_zero, List.append_nil]

theorem lab1_inv (hw : 0 < w) (hpos : ∀ k, k < N → Inside w h (pos k)) (hN : N < 4294967296) :
    FInv w h d bd N pos 0 (lab1 w h d bd pos N) := by
  have hmark : ∀ k, k < N → ∃ k', k' < N ∧ pos k' = pos k ∧
      lp w (lab1 w h d bd pos N) (pos k) = lbl k' := by
    intro k hk
    obtain ⟨k0, g1, g2, g3⟩ := lab0_marker hpos hk
    rcases lab1_cases (d := d) (bd := bd) hpos with ⟨es, hes, e⟩ | e
    · rw [e]
      refine ⟨k0, g1, g2, ?_⟩
      rw [apply_keeps hw lab0_len hes (hpos k hk) (by rw [g3]; exact lbl_ne (by omega)), g3]
    · rw [e]
      rcases apply_markers hpos (lab0_len (pos := pos) (N := N))
        (fun it hit => List.mem_of_mem_take hit) (hpos k hk) with ⟨k', h1, h2, _, h3⟩ | ⟨_, h2⟩
      · exact ⟨k', h1, h2, h3⟩
      · exact ⟨k0, g1, g2, h2.trans g3⟩
  refine ⟨lab1_len, hmark, ?_, ?_⟩
  · intro p hp hne
    have hmk : ∀ k, k < N → pos k = p → ∃ k l, k < N ∧ l ≤ 0 ∧
        lp w (lab1 w h d bd pos N) p = lbl k ∧ lp w (lab1 w h d bd pos N) (pos k) = lbl k ∧
        Walk (fun q => Inside w h q ∧ lp w (lab1 w h d bd pos N) q = lbl k ∧ elev w d q ≤ l)
          (pos k) p ∧
        (bd = false → ∀ k' l', k' < N → Reaches w h d l' (pos k') p → l ≤ l') := by
      intro k hk e
      obtain ⟨k', h1, h2, h3⟩ := hmark k hk
      rw [e] at h2 h3
      exact ⟨k', 0, h1, le_refl _, h3, by rw [h2]; exact h3, by rw [h2]; exact .refl,
        fun _ _ _ _ _ => by omega⟩
    rcases lab1_cases (d := d) (bd := bd) hpos with ⟨es, hes, e⟩ | e
    · rcases apply_some hw lab0_len hes hp with hs | ⟨s1, s2, s3, q, q1, q2, q3⟩
      · have : lp w (lab0 w h pos N) p ≠ -1 := by rw [← hs, ← e]; exact hne
        obtain ⟨k, hk, e'⟩ := lab0_other hpos hp this
        exact hmk k hk e'
      · rw [← e] at s3 q3
        have hqne : lp w (lab0 w h pos N) q ≠ -1 := by rw [q3]; exact s3
        obtain ⟨k, hk, rfl⟩ := lab0_other hpos q1 hqne
        have hq : lp w (lab1 w h d bd pos N) (pos k) = lp w (lab0 w h pos N) (pos k) := by
          rw [e]; exact apply_keeps hw lab0_len hes q1 hqne
        obtain ⟨k', h1, h2, h3⟩ := hmark k hk
        have ep : lp w (lab1 w h d bd pos N) p = lbl k' := by rw [← q3, ← hq, h3]
        refine ⟨k', 0, h1, le_refl _, ep, by rw [h2]; exact h3, ?_, fun _ _ _ _ _ => by omega⟩
        rw [h2]
        exact .step .refl q2 ⟨hp, ep, s2⟩
    · rcases apply_markers hpos (lab0_len (pos := pos) (N := N))
        (fun it hit => List.mem_of_mem_take hit) hp with ⟨k', h1, h2, _, h3⟩ | ⟨_, h2⟩
      · exact hmk k' h1 h2
      · have : lp w (lab0 w h pos N) p ≠ -1 := by rw [← h2, ← e]; exact hne
        obtain ⟨k, hk, e'⟩ := lab0_other hpos hp this
        exact hmk k hk e'
  · intro _ l' _ _ hl'
    omega

/-- If the first round finds nothing to do, level 0 is finished. -/
theorem lab1_next (hw : 0 < w) (hpos : ∀ k, k < N → Inside w h (pos k)) (hN : N < 4294967296)
    (he : wsExps w h d bd 0 (lab0 w h pos N) (w * h) = []) :
    FInv w h d bd N pos 1 (lab1 w h d bd pos N) := by
  have hI := lab1_inv (d := d) (bd := bd) hw hpos hN
  refine ⟨hI.len, hI.mark, ?_, ?_⟩
  · intro p hp hne
    obtain ⟨k, l, hk, hl, r⟩ := hI.grown p hp hne
    exact ⟨k, l, hk, by omega, r⟩
  · intro hb l' k' p hl' hk' hr
    subst hb
    have hp : Inside w h p := by
      cases hr with
      | refl => exact hpos k' hk'
      | step _ _ hs => exact hs.1
    have h0 := complete_level (lab0 := lab0 w h pos N) hpos (fun k hk => by
      obtain ⟨k'', h1, _, h3⟩ := lab0_marker hpos hk
      rw [h3]; exact lbl_ne (by omega)) he hk' (by omega : l' ≤ 0) hr
    obtain ⟨k, hk, rfl⟩ := lab0_other hpos hp h0
    obtain ⟨k'', h1, _, h3⟩ := hI.mark k hk
    rw [h3]; exact lbl_ne (by omega)

end first

/-! ### All rounds and levels -/

section run
variable {w h : Nat} {d : List UInt8} {bd : Bool} {N : Nat} {pos : Nat → Pix} {lvl : Nat}
  {lab : List Int}

theorem floodRound_ok (hw : 0 < w) (hn : w * h ≤ 2147483647) (hd : d.length = w * h)
    (hl : lab.length = w * h) {q : Queue} {l : List QueueItem} (hq : QRep (w * h) q l)
    (hi : ∀ it ∈ l, ItemIn w h it) :
    Ok (floodRound w h (w * h) d bd lvl (lab.map some, q)) (fun r =>
      r.1.1 = (applyAll w lab (qpushAll (w * h) l (wsExps w h d bd lvl lab (w * h)))).map some ∧
      QRep (w * h) r.1.2 [] ∧ r.2 = (wsExps w h d bd lvl lab (w * h)).isEmpty) := by
  unfold floodRound
  refine Ok.bind (scanAll_ok hn hd hl hq) ?_
  rintro ⟨q', ch⟩ ⟨h1, h2⟩
  simp only at h1 h2 ⊢
  refine Ok.bind (drain_ok hn hl h1 ?_ ?_) ?_
  · intro it hit
    unfold qpushAll at hit
    rcases List.mem_append.1 hit with hit | hit
    · exact hi it hit
    · exact wsExps_item hw (List.mem_of_mem_take hit)
  · have := h1.le; omega
  · rintro r ⟨r1, r2⟩
    refine Ok.pure' ⟨r1, r2, ?_⟩
    rw [h2]; simp

/-- A round started with an empty queue. -/
theorem floodRound_grow (hw : 0 < w) (hn : w * h ≤ 2147483647) (hd : d.length = w * h)
    (hl : lab.length = w * h) {q : Queue} (hq : QRep (w * h) q []) :
    Ok (floodRound w h (w * h) d bd lvl (lab.map some, q)) (fun r =>
      r.1.1 = (grow w h d bd lvl lab).map some ∧ QRep (w * h) r.1.2 [] ∧
      r.2 = (wsExps w h d bd lvl lab (w * h)).isEmpty) := by
  refine (floodRound_ok hw hn hd hl hq (by simp)).mono ?_
  rintro r ⟨r1, r2, r3⟩
  refine ⟨?_, r2, r3⟩
  rw [r1]
  unfold grow qpushAll
  rw [List.nil_append, List.take_of_length_le (by
    simpa using wsExps_length (d := d) (bd := bd) (lvl := lvl) (lab := lab) (w := w) (h := h) (w * h))]

/-- State with an empty queue. -/
def RunInv (w h : Nat) (d : List UInt8) (bd : Bool) (N : Nat) (pos : Nat → Pix) (lvl : Nat)
    (s : Cells Int × Queue) : Prop :=
  ∃ lab, s.1 = lab.map some ∧ QRep (w * h) s.2 [] ∧ FInv w h d bd N pos lvl lab

/-- State at the end of level `lvl`: nothing can be added. -/
def LevelDone (w h : Nat) (d : List UInt8) (bd : Bool) (N : Nat) (pos : Nat → Pix) (lvl : Nat)
    (s : Cells Int × Queue) : Prop :=
  ∃ lab, s.1 = lab.map some ∧ QRep (w * h) s.2 [] ∧ FInv w h d bd N pos (lvl + 1) lab ∧
    wsExps w h d bd lvl lab (w * h) = []

theorem level_ok (hw : 0 < w) (hn : w * h ≤ 2147483647) (hd : d.length = w * h)
    (hpos : ∀ k, k < N → Inside w h (pos k)) (hN : N < 4294967296) {fuel : Nat}
    (hf : w * h < fuel) {s : Cells Int × Queue} (hs : RunInv w h d bd N pos lvl s) :
    Ok (whileFuel fuel s (floodRound w h (w * h) d bd lvl)) (LevelDone w h d bd N pos lvl) := by
  classical
  let μ : Cells Int × Queue → Nat := fun s =>
    ((Finset.range (w * h)).filter fun i => s.1[i]? = some (some (-1))).card
  have hμ : ∀ (lab : List Int) q, lab.length = w * h → μ (lab.map some, q) = unlab (w * h) lab := by
    intro lab q hl
    unfold unlab
    simp only [μ]
    congr 1
    apply Finset.filter_congr
    intro i hi
    rw [Finset.mem_range] at hi
    rw [List.getElem?_map, gl_some (by omega)]
    simp
  refine whileFuel_ok (RunInv w h d bd N pos lvl) μ _ hs ?_ ?_
  · obtain ⟨s1, s2⟩ := s
    obtain ⟨lab, e, _, hI⟩ := hs
    simp only at e
    subst e
    rw [hμ _ _ hI.len]
    exact lt_of_le_of_lt (unlab_le _ _) hf
  · rintro ⟨s1, q⟩ ⟨lab, e, hq, hI⟩
    simp only at e hq
    subst e
    refine (floodRound_grow hw hn hd hI.len hq).mono ?_
    rintro ⟨⟨r1, r2⟩, b⟩ ⟨g1, g2, g3⟩
    simp only at g1 g2 g3 ⊢
    subst g1
    by_cases he : wsExps w h d bd lvl lab (w * h) = []
    · have hg : grow w h d bd lvl lab = lab := by unfold grow; rw [he]; rfl
      rw [g3, he, hg]
      simp only [List.isEmpty_nil, if_true]
      exact ⟨lab, rfl, g2, hI.next hpos hN (fun hb => by rw [← hb]; exact he), he⟩
    · have : b = false := by
        rw [g3]; simpa using he
      rw [this]
      simp only [Bool.false_eq_true, if_false]
      refine ⟨⟨grow w h d bd lvl lab, rfl, g2, hI.grow hw hpos hN⟩, ?_⟩
      rw [hμ _ _ hI.len, hμ _ _ (hI.grow hw hpos hN).len]
      exact unlab_grow hw hI.len he

theorem level0_ok (hw : 0 < w) (hn : w * h ≤ 2147483647) (hd : d.length = w * h)
    (hpos : ∀ k, k < N → Inside w h (pos k)) (hN : N < 4294967296) {q : Queue}
    (hq : QRep (w * h) q ((mlist pos N).take (w * h))) :
    Ok (whileFuel (w * h + 2) ((lab0 w h pos N).map some, q) (floodRound w h (w * h) d bd 0))
      (RunInv w h d bd N pos 1) := by
  unfold whileFuel
  refine Ok.bind (floodRound_ok hw hn hd lab0_len hq ?_) ?_
  · intro it hit
    obtain ⟨k, _, _, _, r⟩ := mlist_idx hpos (List.mem_of_mem_take hit)
    exact r
  · rintro ⟨⟨r1, r2⟩, b⟩ ⟨g1, g2, g3⟩
    simp only at g1 g2 g3 ⊢
    by_cases he : wsExps w h d bd 0 (lab0 w h pos N) (w * h) = []
    · rw [g3, he]
      simp only [List.isEmpty_nil, if_true]
      exact Ok.pure ⟨lab1 w h d bd pos N, g1, g2, lab1_next hw hpos hN he⟩
    · have : b = false := by rw [g3]; simpa using he
      rw [this]
      simp only [Bool.false_eq_true, if_false]
      refine (level_ok hw hn hd hpos hN (by omega)
        ⟨lab1 w h d bd pos N, g1, g2, lab1_inv hw hpos hN⟩).mono ?_
      rintro s ⟨lab, a, b, c, _⟩
      exact ⟨lab, a, b, c⟩

/-- All 256 levels. -/
theorem floodLevels_ok (hw : 0 < w) (hn : w * h ≤ 2147483647) (hd : d.length = w * h)
    (hpos : ∀ k, k < N → Inside w h (pos k)) (hN : N < 4294967296) {q : Queue}
    (hq : QRep (w * h) q ((mlist pos N).take (w * h))) :
    Ok (floodLevels w h (w * h) d bd ((lab0 w h pos N).map some) q)
      (LevelDone w h d bd N pos 255) := by
  unfold floodLevels
  rw [show (256 : Nat) = 255 + 1 from rfl, forN_succ]
  refine Ok.bind (P := RunInv w h d bd N pos 255) ?_ ?_
  · have := forN_ok (n := 255) (s := ((lab0 w h pos N).map some, q))
      (body := fun lvl s => whileFuel (w * h + 2) s (floodRound w h (w * h) d bd lvl))
      (fun k s => (k = 0 → s = ((lab0 w h pos N).map some, q)) ∧
        (0 < k → RunInv w h d bd N pos k s)) ⟨fun _ => rfl, fun h => absurd h (by omega)⟩ ?_
    · exact this.mono fun s hs => hs.2 (by omega)
    · intro k hk s hs
      by_cases h0 : k = 0
      · subst h0
        rw [hs.1 rfl]
        exact (level0_ok hw hn hd hpos hN hq).mono fun s hs => ⟨fun h => absurd h (by omega), fun _ => hs⟩
      · refine (level_ok hw hn hd hpos hN (by omega) (hs.2 (by omega))).mono ?_
        rintro s ⟨lab, a, b, c, _⟩
        exact ⟨fun h => absurd h (by omega), fun _ => ⟨lab, a, b, c⟩⟩
  · intro s hs
    exact level_ok hw hn hd hpos hN (by omega) hs

end run

end FlatCV
