/-
Properties of sorting corners (C60, C101, C102).
-/
import Verif.Lemmas.Sort
import Verif.Props.Warp
import Verif.Lemmas.HPart
import Mathlib.Analysis.SpecialFunctions.Complex.Arg
import Mathlib.Analysis.Real.Pi.Bounds

namespace FlatCV.Props
open FlatCV FlatCV.Model FlatCV.Spec

/-- The array starts with the points `l`; the rest is as before. -/
def StartsWith (l : List Pt) (r r' : Cells Pt) : Prop := r' = l.map some ++ r.drop l.length

/-- What a call may do: without memory it returns zeros and leaves the array alone; otherwise the array starts
with a list of points satisfying `Q`, of which the first four, scaled, are returned.  The heap is as before. -/
def SortsInto (call : HM (Corners Dbl × Option (Cells Pt))) (r : Cells Pt) (sx sy : Dbl) (Q : List Pt → Prop) : Prop :=
  ∀ hp, HOk call hp fun res h' => Undisturbed hp h' ∧
    ((res = (noCorners, some r) ∧ OutOfMemory hp h') ∨
      ∃ l r', Q l ∧ 4 ≤ l.length ∧ StartsWith l r r' ∧ res = (scaled l sx sy, some r'))

theorem SortsInto.mono {call : HM (Corners Dbl × Option (Cells Pt))} {r : Cells Pt} {sx sy : Dbl} {Q Q' : List Pt → Prop}
    (h : SortsInto call r sx sy Q) (hq : ∀ l, Q l → Q' l) : SortsInto call r sx sy Q' := by
  intro hp
  refine (h hp).mono ?_
  rintro res h' ⟨h1, h2 | ⟨l, r', h3, h4, h5, h6⟩⟩
  · exact ⟨h1, Or.inl h2⟩
  · exact ⟨h1, Or.inr ⟨l, r', hq l h3, h4, h5, h6⟩⟩

/-- The call, with all that is known about the result. -/
theorem sort_call (P : Plat) {at2 : Dbl → Dbl → Dbl} (ha : AtanRange at2) {pts : List Pt} (hn : 4 ≤ pts.length)
    (hsz : pts.length * 24 ≤ P.szMax) {r : Cells Pt} (hr : pts.length ≤ r.length) {width height ow oh : Nat} {sx sy : Dbl}
    (hsx : scaleOf width ow = .ok sx) (hsy : scaleOf height oh = .ok sy) {c : Dbl × Dbl} {t : Nat}
    (hc : centroid pts.length (pts.map some) = .ok c) (htl : topLeft pts.length (pts.map some) = .ok t)
    (ht : t < pts.length) :
    SortsInto (sort_corners P at2 width height ow oh pts pts.length (some r)) r sx sy fun l =>
      ∃ L : List CornerInfo, l = (L.map fun e => pts.getD e.index noPt) ∧ L.Perm (infos at2 c t pts) ∧
      ((∀ a ∈ infos at2 c t pts, ∀ b ∈ infos at2 c t pts, shouldSwap a b = true → shouldSwap b a = false) →
       (∀ a ∈ infos at2 c t pts, ∀ b ∈ infos at2 c t pts, ∀ d ∈ infos at2 c t pts,
          shouldSwap a b = false → shouldSwap b d = false → shouldSwap a d = false) →
        L.Pairwise fun a b => shouldSwap a b = false) := by
  intro hp
  have e1 : P.sz (pts.length * 16) / 16 = pts.length := by rw [P.sz_eq' (by omega)]; omega
  have e2 : P.sz (pts.length * 24) / 24 = pts.length := by rw [P.sz_eq' (by omega)]; omega
  unfold sort_corners
  rw [if_neg (by omega), if_pos (by omega)]
  dsimp only
  rw [e1, e2, duringCall_start hp]
  refine during_malloc (fun hf => ?_) ?_
  · refine HOk.pure ⟨⟨rfl, rfl, Nat.le_add_right _ _⟩, Or.inl ⟨rfl, rfl, rfl, Nat.le_add_right _ _, hp.next, le_refl _, ?_, hf⟩⟩
    show hp.next < hp.next + 1
    omega
  · have hprep : sortPrepare pts pts.length pts.length (List.replicate pts.length none) = .ok (pts.map some, c, t) := by
      unfold sortPrepare
      rw [fillWorking_ok hn, ok_bind, hc, ok_bind, htl, ok_bind]
      rfl
    refine during_use (K := [0]) hprep (by decide) ?_
    dsimp only
    refine during_malloc (fun hf => ?_) ?_
    · refine ⟨(noCorners, some r), duringCall hp 2 [], ?_, ⟨rfl, rfl, Nat.le_add_right _ _⟩,
        Or.inl ⟨rfl, rfl, rfl, Nat.le_add_right _ _, hp.next + 1, Nat.le_add_right _ _, ?_, hf⟩⟩
      · have := free_during (hp := hp) (m := 2) (i := 0) (J := [0]) (by decide)
        exact hm_step this
      · show hp.next + 1 < hp.next + 2
        omega
    · obtain ⟨L, l1, l2, l3⟩ := arrange_ok ha hn ht hsx hsy c hr
      dsimp only
      refine during_use (K := [0, 1]) l3 (by decide) ?_
      dsimp only
      have hL : L.length = pts.length := by
        rw [l1.length_eq]
        unfold infos
        simp
      refine ⟨_, duringCall hp 2 [], ?_, ⟨rfl, rfl, Nat.le_add_right _ _⟩,
        Or.inr ⟨_, _, ⟨L, rfl, l1, l2⟩, by simp; omega, rfl, rfl⟩⟩
      have f1 := free_during (hp := hp) (m := 2) (i := 1) (J := [1, 0]) (by decide)
      have f2 := free_during (hp := hp) (m := 2) (i := 0) (J := [1, 0].erase 1) (by decide)
      rw [hm_step f1, hm_step f2, List.length_map, hL]
      rfl

/-- C60 (four or more corners): for all doubles, NaN and infinities included, the result is a permutation of the
corners; nothing else is accessed, all memory is released, and without memory nothing happens. -/
theorem sort_corners_permutes (P : Plat) {at2 : Dbl → Dbl → Dbl} (ha : AtanRange at2) {pts : List Pt} (hn : 4 ≤ pts.length)
    (hsz : pts.length * 24 ≤ P.szMax) {r : Cells Pt} (hr : pts.length ≤ r.length) {width height ow oh : Nat} {sx sy : Dbl}
    (hsx : scaleOf width ow = .ok sx) (hsy : scaleOf height oh = .ok sy) :
    SortsInto (sort_corners P at2 width height ow oh pts pts.length (some r)) r sx sy fun l => l.Perm pts := by
  obtain ⟨c, hc, -⟩ := centroid_ok (pts := pts) (by omega)
  obtain ⟨t, htl, ht, -⟩ := topLeft_ok (pts := pts) (by omega)
  refine (sort_call P ha hn hsz hr hsx hsy hc htl ht).mono ?_
  rintro l ⟨L, rfl, hL, -⟩
  exact perm_points hL

/-- C60 (order): let the corners be seen from their centroid in directions `θ`, and let `tl` be the one with the
smallest `x + y`.  If the directions differ by at least 0.000002, the corners are returned in clockwise order,
starting with `tl`. -/
theorem sort_corners_clockwise (P : Plat) {at2 : Dbl → Dbl → Dbl} (ha : AtanRange at2) {pts : List Pt} (hn : 4 ≤ pts.length)
    (hsz : pts.length * 24 ≤ P.szMax) {r : Cells Pt} (hr : pts.length ≤ r.length) {width height ow oh : Nat} {sx sy : Dbl}
    (hsx : scaleOf width ow = .ok sx) (hsy : scaleOf height oh = .ok sy) {cx cy : Dbl}
    (hcx : IsCentre (pts.map Pt.x) cx) (hcy : IsCentre (pts.map Pt.y) cy) {θ : Pt → ℚ}
    (hθ : ∀ p ∈ pts, at2 (Dbl.sub Fmt.b64 p.y cy) (Dbl.sub Fmt.b64 p.x cx) = .fin (θ p)) {tl : Pt} (hm : tl ∈ pts)
    (hfin : ∀ p ∈ pts, ∃ q, Dbl.add Fmt.b64 p.x p.y = .fin q)
    (hmin : ∀ p ∈ pts, p ≠ tl → Dbl.lt (Dbl.add Fmt.b64 tl.x tl.y) (Dbl.add Fmt.b64 p.x p.y) = true)
    (hsep : pts.Pairwise fun p q => 1 / 500000 ≤ |turn (θ tl) (θ p) - turn (θ tl) (θ q)|)
    (hwin : ∀ p ∈ pts, p = tl ∨ (1 / 500000 ≤ turn (θ tl) (θ p) ∧ turn (θ tl) (θ p) ≤ 2 * pi64 - 1 / 500000)) :
    SortsInto (sort_corners P at2 width height ow oh pts pts.length (some r)) r sx sy fun l =>
      l.Perm pts ∧ l.head? = some tl ∧ l.Pairwise fun p q => turn (θ tl) (θ p) < turn (θ tl) (θ q) := by
  obtain ⟨c, hc, c1, c2⟩ := centroid_ok (pts := pts) (by omega)
  obtain ⟨t, htl, ht, hmin'⟩ := topLeft_ok (pts := pts) (by omega)
  have ex : c.1 = cx := by
    unfold IsCentre at c1 hcx
    rw [c1] at hcx
    cases hcx
    rfl
  have ey : c.2 = cy := by
    unfold IsCentre at c2 hcy
    rw [c2] at hcy
    cases hcy
    rfl
  have mem : ∀ k, k < pts.length → pts.getD k noPt ∈ pts := fun k hk => List.mem_of_getElem? (getD_some hk noPt)
  have et : pts.getD t noPt = tl := by
    by_contra hne
    have h1 := hmin _ (mem t ht) hne
    obtain ⟨i, hi⟩ := List.getElem?_of_mem hm
    have hil := (List.getElem?_eq_some_iff.1 hi).1
    have h2 := (hmin' hfin i hil).1
    rw [getD_some hil noPt] at hi
    cases hi
    rw [show Dbl.lt (sumOf (pts.getD i noPt)) (sumOf (pts.getD t noPt)) = true from h1] at h2
    cases h2
  have hθ' : ∀ p ∈ pts, at2 (dsub p.y c.2) (dsub p.x c.1) = .fin (θ p) ∧ |θ p| ≤ pi64 := by
    intro p hp
    rw [ex, ey]
    have h1 := hθ p hp
    refine ⟨h1, ?_⟩
    rcases ha (Dbl.sub Fmt.b64 p.y cy) (Dbl.sub Fmt.b64 p.x cx) with h2 | ⟨q, h2, h3⟩
    · rw [h1] at h2; cases h2
    · rw [h1] at h2; cases h2; exact h3
  have key : ∀ i j, i < pts.length → j < pts.length → ∀ a b : CornerInfo,
      a = ⟨i, relDbl (angleOf at2 c (pts.getD t noPt)) (angleOf at2 c (pts.getD i noPt)), distOf c (pts.getD i noPt)⟩ →
      b = ⟨j, relDbl (angleOf at2 c (pts.getD t noPt)) (angleOf at2 c (pts.getD j noPt)), distOf c (pts.getD j noPt)⟩ →
      shouldSwap a b = decide (turn (θ tl) (θ (pts.getD j noPt)) < turn (θ tl) (θ (pts.getD i noPt))) := by
    intro i j hi hj a b hia hjb
    have := swap_iff hθ' ht (by rw [et]; exact hsep) (by rw [et]; exact hwin) hi hj hia hjb
    rwa [et] at this
  have idx : ∀ a ∈ infos at2 c t pts, a.index < pts.length ∧
      a = ⟨a.index, relDbl (angleOf at2 c (pts.getD t noPt)) (angleOf at2 c (pts.getD a.index noPt)),
        distOf c (pts.getD a.index noPt)⟩ := by
    intro a ha
    obtain ⟨i, hi, rfl⟩ := List.mem_map.1 ha
    exact ⟨List.mem_range.1 hi, rfl⟩
  have key' : ∀ a ∈ infos at2 c t pts, ∀ b ∈ infos at2 c t pts, shouldSwap a b =
      decide (turn (θ tl) (θ (pts.getD b.index noPt)) < turn (θ tl) (θ (pts.getD a.index noPt))) :=
    fun a ha b hb => key _ _ (idx a ha).1 (idx b hb).1 a b (idx a ha).2 (idx b hb).2
  refine (sort_call P ha hn hsz hr hsx hsy hc htl ht).mono ?_
  rintro l ⟨L, rfl, hL, hs⟩
  have hperm := perm_points hL
  have hsorted := hs
    (by
      intro a ha b hb h
      rw [key' a ha b hb] at h
      rw [key' b hb a ha]
      exact decide_eq_false (by have := of_decide_eq_true h; linarith))
    (by
      intro a ha b hb d hd h1 h2
      rw [key' a ha b hb] at h1
      rw [key' b hb d hd] at h2
      rw [key' a ha d hd]
      have h1' := of_decide_eq_false h1
      have h2' := of_decide_eq_false h2
      exact decide_eq_false (by linarith))
  have hle : (L.map fun e => pts.getD e.index noPt).Pairwise fun p q => turn (θ tl) (θ p) ≤ turn (θ tl) (θ q) := by
    rw [List.pairwise_map]
    refine hsorted.imp_of_mem ?_
    intro a b ha hb h
    rw [key' a (hL.mem_iff.1 ha) b (hL.mem_iff.1 hb)] at h
    exact not_lt.1 (of_decide_eq_false h)
  have hne : (L.map fun e => pts.getD e.index noPt).Pairwise fun p q => 1 / 500000 ≤ |turn (θ tl) (θ p) - turn (θ tl) (θ q)| := by
    refine (hperm.pairwise_iff ?_).2 hsep
    intro p q h
    rwa [abs_sub_comm]
  have hlt := hle.and hne
  have hlt' : (L.map fun e => pts.getD e.index noPt).Pairwise fun p q => turn (θ tl) (θ p) < turn (θ tl) (θ q) := by
    refine hlt.imp ?_
    rintro p q ⟨h1, h2⟩
    rcases lt_or_eq_of_le h1 with h | h
    · exact h
    · rw [h, sub_self] at h2
      norm_num at h2
  refine ⟨hperm, ?_, hlt'⟩
  generalize (L.map fun e => pts.getD e.index noPt) = l at *
  cases l with
  | nil => exact absurd (hperm.mem_iff.2 hm) (by simp)
  | cons p l =>
    rw [List.pairwise_cons] at hlt'
    rcases List.mem_cons.1 (hperm.mem_iff.2 hm) with h | h
    · rw [h]; rfl
    · have h1 := hlt'.1 tl h
      rw [turn_self] at h1
      rcases hwin p (hperm.mem_iff.1 (List.mem_cons_self)) with e | e
      · rw [e]; rfl
      · linarith [e.1]

theorem sz96 (P : Plat) : 96 ≤ P.szMax := by
  have := P.mod_ge
  unfold Plat.szMax
  omega

/-! ### Rectangles -/

/-- A point with natural coordinates. -/
def pt (x y : Nat) : Pt := ⟨.fin x, .fin y⟩

/-- The corners of an upright rectangle: top-left, top-right, bottom-right, bottom-left. -/
def rect (x0 y0 x1 y1 : Nat) : List Pt := [pt x0 y0, pt x1 y0, pt x1 y1, pt x0 y1]

theorem half_exact {m : ℤ} (h : |m| ≤ 9007199254740992) : Fmt.b64.rnd ((m : ℚ) / 2) = (m : ℚ) / 2 := by
  have := rnd_exact Fmt.b64 (m := m) (e := -1) (by decide) (h.trans (by decide))
  rw [show (m : ℚ) * 2 ^ (-1 : ℤ) = (m : ℚ) / 2 by rw [zpow_neg_one]; ring] at this
  exact this

theorem half_lift {m : ℤ} (h : |m| ≤ 9007199254740992) : Fmt.b64.lift ((m : ℚ) / 2) = .fin ((m : ℚ) / 2) := by
  have hq : |(m : ℚ)| ≤ 9007199254740992 := by
    have : ((|m| : ℤ) : ℚ) ≤ ((9007199254740992 : ℤ) : ℚ) := by exact_mod_cast h
    rw [Int.cast_abs] at this
    exact this.trans (by norm_num)
  rw [lift64 (k := 53) (by norm_num), half_exact h]
  rw [abs_div, abs_two]
  linarith [abs_nonneg (m : ℚ)]

theorem sum_nats {xs : List Nat} {a : Nat} (h : a + xs.sum ≤ 9007199254740992) :
    (xs.map fun n : ℕ => Dbl.fin (n : ℚ)).foldl (Dbl.add Fmt.b64) (.fin a) = .fin ((a + xs.sum : ℕ) : ℚ) := by
  induction xs generalizing a with
  | nil => simp
  | cons n xs ih =>
    rw [List.sum_cons] at h
    have := add_int64 (a := (a : ℤ)) (b := (n : ℤ)) (by rw [abs_of_nonneg (by omega)]; omega)
    rw [List.map_cons, List.foldl_cons, show Dbl.add Fmt.b64 (.fin (a : ℚ)) (.fin (n : ℚ)) = .fin ((a + n : ℕ) : ℚ) by
      push_cast at this ⊢
      exact this, ih (by omega), List.sum_cons, Nat.add_assoc]

theorem centre_nats {xs : List Nat} {s : Nat} (hl : xs.length = 4) (hs : xs.sum = 2 * s) (hb : s ≤ 4503599627370496) :
    IsCentre (xs.map fun n : ℕ => Dbl.fin (n : ℚ)) (.fin ((s : ℚ) / 2)) := by
  unfold IsCentre
  have := sum_nats (xs := xs) (a := 0) (by omega)
  rw [Nat.cast_zero] at this
  rw [this, List.length_map, hl, hs]
  unfold Dbl.div
  dsimp only
  rw [if_neg (by norm_num)]
  have e : ((0 + 2 * s : ℕ) : ℚ) / ((4 : ℕ) : ℚ) = ((s : ℤ) : ℚ) / 2 := by push_cast; ring
  rw [e, half_lift (by rw [abs_of_nonneg (by omega)]; omega)]
  push_cast
  rfl

theorem sub_centre {x s : Nat} (hx : x ≤ 1048576) (hs : s ≤ 2097152) :
    Dbl.sub Fmt.b64 (.fin (x : ℚ)) (.fin ((s : ℚ) / 2)) = .fin ((2 * (x : ℚ) - s) / 2) := by
  show Fmt.b64.lift ((x : ℚ) + -((s : ℚ) / 2)) = _
  have e : (x : ℚ) + -((s : ℚ) / 2) = ((2 * (x : ℤ) - s : ℤ) : ℚ) / 2 := by push_cast; ring
  rw [e, half_lift (by rw [abs_le]; constructor <;> omega)]
  push_cast
  rfl

theorem sum_pt {x y : Nat} (hx : x ≤ 1048576) (hy : y ≤ 1048576) :
    Dbl.add Fmt.b64 (pt x y).x (pt x y).y = .fin ((x + y : ℕ) : ℚ) := by
  have := add_int64 (a := (x : ℤ)) (b := (y : ℤ)) (by rw [abs_of_nonneg (by omega)]; omega)
  push_cast at this ⊢
  exact this

theorem pt_inj {a b c d : Nat} : pt a b = pt c d ↔ a = c ∧ b = d := by
  unfold pt
  rw [Pt.mk.injEq, Dbl.fin.injEq, Dbl.fin.injEq, Nat.cast_inj, Nat.cast_inj]

theorem rect_cases {x0 y0 x1 y1 : Nat} {pts : List Pt} (hpts : pts.Perm (rect x0 y0 x1 y1)) :
    ∃ ns : List (Nat × Nat), ns.Perm [(x0, y0), (x1, y0), (x1, y1), (x0, y1)] ∧ pts = ns.map fun n => pt n.1 n.2 := by
  have hr : rect x0 y0 x1 y1 = [(x0, y0), (x1, y0), (x1, y1), (x0, y1)].map fun n : Nat × Nat => pt n.1 n.2 := rfl
  have hm : ∀ p ∈ pts, p ∈ Set.range fun n : Nat × Nat => pt n.1 n.2 := by
    intro p hp
    have := hpts.mem_iff.1 hp
    rw [hr] at this
    obtain ⟨n, -, h⟩ := List.mem_map.1 this
    exact ⟨n, h⟩
  obtain ⟨ns, rfl⟩ : ∃ ns : List (Nat × Nat), ns.map (fun n : Nat × Nat => pt n.1 n.2) = pts := by
    clear hpts
    induction pts with
    | nil => exact ⟨[], rfl⟩
    | cons p l ih =>
      obtain ⟨n, h1⟩ := hm p List.mem_cons_self
      obtain ⟨ns, h2⟩ := ih fun q hq => hm q (List.mem_cons_of_mem _ hq)
      exact ⟨n :: ns, by rw [List.map_cons, h2]; exact congrArg (· :: l) h1⟩
  refine ⟨ns, ?_, rfl⟩
  rw [hr] at hpts
  refine (List.map_perm_map_iff ?_).1 hpts
  intro a b h
  have := pt_inj.1 h
  exact Prod.ext this.1 this.2

/-- C60 and C101: the corners of an upright rectangle, given in any order, are returned as top-left, top-right,
bottom-right, bottom-left (coordinates up to 2^20, one side at most 10000 times the other). -/
theorem sort_corners_rectangle (P : Plat) {at2 : Dbl → Dbl → Dbl} (ha : AtanRange at2) (hq : AtanQuadrant at2)
    {x0 y0 x1 y1 : Nat} (hx : x0 < x1) (hy : y0 < y1) (hx1 : x1 ≤ 1048576) (hy1 : y1 ≤ 1048576)
    (hr1 : x1 - x0 ≤ 10000 * (y1 - y0)) (hr2 : y1 - y0 ≤ 10000 * (x1 - x0)) {pts : List Pt}
    (hpts : pts.Perm (rect x0 y0 x1 y1)) {r : Cells Pt} (hr : 4 ≤ r.length) {width height ow oh : Nat}
    {sx sy : Dbl} (hsx : scaleOf width ow = .ok sx) (hsy : scaleOf height oh = .ok sy) :
    SortsInto (sort_corners P at2 width height ow oh pts 4 (some r)) r sx sy fun l => l = rect x0 y0 x1 y1 := by
  have hlen : pts.length = 4 := hpts.length_eq.trans rfl
  have tp := twoPi_bounds
  have hpi : pi64 = twoPi / 2 := by unfold pi64 twoPi; norm_num
  have hmar : margin = 1 / 20000 := rfl
  obtain ⟨ns, hns, hpn⟩ := rect_cases hpts
  have hcx : IsCentre (pts.map Pt.x) (.fin (((x0 + x1 : ℕ) : ℚ) / 2)) := by
    have e : pts.map Pt.x = (ns.map Prod.fst).map fun n : ℕ => Dbl.fin (n : ℚ) := by
      rw [hpn, List.map_map, List.map_map]; rfl
    rw [e]
    have h1 := hns.map Prod.fst
    exact centre_nats (h1.length_eq.trans rfl) (by rw [h1.sum_eq]; simp; omega) (by omega)
  have hcy : IsCentre (pts.map Pt.y) (.fin (((y0 + y1 : ℕ) : ℚ) / 2)) := by
    have e : pts.map Pt.y = (ns.map Prod.snd).map fun n : ℕ => Dbl.fin (n : ℚ) := by
      rw [hpn, List.map_map, List.map_map]; rfl
    rw [e]
    have h1 := hns.map Prod.snd
    exact centre_nats (h1.length_eq.trans rfl) (by rw [h1.sum_eq]; simp; omega) (by omega)
  -- the half sides
  have hxq : (x0 : ℚ) < x1 := by exact_mod_cast hx
  have hyq : (y0 : ℚ) < y1 := by exact_mod_cast hy
  have r1 : (x1 : ℚ) - x0 ≤ 10000 * ((y1 : ℚ) - y0) := by
    have h : x1 + 10000 * y0 ≤ x0 + 10000 * y1 := by omega
    have : (x1 : ℚ) + 10000 * y0 ≤ x0 + 10000 * y1 := by exact_mod_cast h
    linarith
  have r2 : (y1 : ℚ) - y0 ≤ 10000 * ((x1 : ℚ) - x0) := by
    have h : y1 + 10000 * x0 ≤ y0 + 10000 * x1 := by omega
    have : (y1 : ℚ) + 10000 * x0 ≤ y0 + 10000 * x1 := by exact_mod_cast h
    linarith
  have d1 : (2 * (x0 : ℚ) - ((x0 + x1 : ℕ) : ℚ)) / 2 = -(((x1 : ℚ) - x0) / 2) := by push_cast; ring
  have d2 : (2 * (x1 : ℚ) - ((x0 + x1 : ℕ) : ℚ)) / 2 = ((x1 : ℚ) - x0) / 2 := by push_cast; ring
  have d3 : (2 * (y0 : ℚ) - ((y0 + y1 : ℕ) : ℚ)) / 2 = -(((y1 : ℚ) - y0) / 2) := by push_cast; ring
  have d4 : (2 * (y1 : ℚ) - ((y0 + y1 : ℕ) : ℚ)) / 2 = ((y1 : ℚ) - y0) / 2 := by push_cast; ring
  obtain ⟨u, hu⟩ : ∃ u, u = ((x1 : ℚ) - x0) / 2 := ⟨_, rfl⟩
  obtain ⟨v, hv⟩ : ∃ v, v = ((y1 : ℚ) - y0) / 2 := ⟨_, rfl⟩
  have up : 0 < u := by rw [hu]; linarith
  have vp : 0 < v := by rw [hv]; linarith
  have uv : |u| ≤ 10000 * |v| := by rw [abs_of_pos up, abs_of_pos vp]; linarith
  have vu : |v| ≤ 10000 * |u| := by rw [abs_of_pos up, abs_of_pos vp]; linarith
  obtain ⟨q0, a0, -, -, b0, -⟩ := hq (-u) (-v) (by linarith) (by linarith) (by rwa [abs_neg, abs_neg])
    (by rwa [abs_neg, abs_neg])
  obtain ⟨q1, a1, -, -, -, b1⟩ := hq u (-v) (by linarith) (by linarith) (by rwa [abs_neg]) (by rwa [abs_neg])
  obtain ⟨q2, a2, b2, -⟩ := hq u v (by linarith) (by linarith) uv vu
  obtain ⟨q3, a3, -, b3, -⟩ := hq (-u) v (by linarith) (by linarith) (by rwa [abs_neg]) (by rwa [abs_neg])
  have c0 := b0 (by linarith) (by linarith)
  have c1 := b1 (by linarith) (by linarith)
  have c2 := b2 (by linarith) (by linarith)
  have c3 := b3 (by linarith) (by linarith)
  rw [hpi, hmar] at c0 c1 c2 c3
  have n1 : pt x1 y0 ≠ pt x0 y0 := fun h => by have := (pt_inj.1 h).1; omega
  have n2 : pt x1 y1 ≠ pt x0 y0 := fun h => by have := (pt_inj.1 h).1; omega
  have n3 : pt x1 y1 ≠ pt x1 y0 := fun h => by have := (pt_inj.1 h).2; omega
  have n4 : pt x0 y1 ≠ pt x0 y0 := fun h => by have := (pt_inj.1 h).2; omega
  have n5 : pt x0 y1 ≠ pt x1 y0 := fun h => by have := (pt_inj.1 h).1; omega
  have n6 : pt x0 y1 ≠ pt x1 y1 := fun h => by have := (pt_inj.1 h).1; omega
  obtain ⟨θ, t0, t1, t2, t3⟩ : ∃ θ : Pt → ℚ, θ (pt x0 y0) = q0 ∧ θ (pt x1 y0) = q1 ∧ θ (pt x1 y1) = q2 ∧ θ (pt x0 y1) = q3 :=
    ⟨fun p => if p = pt x0 y0 then q0 else if p = pt x1 y0 then q1 else if p = pt x1 y1 then q2 else q3,
      if_pos rfl, by dsimp only; rw [if_neg n1, if_pos rfl], by dsimp only; rw [if_neg n2, if_neg n3, if_pos rfl],
      by dsimp only; rw [if_neg n4, if_neg n5, if_neg n6]⟩
  have k0 : turn q0 q0 = 0 := turn_self _
  have k1 : turn q0 q1 = q1 - q0 := if_pos (by linarith)
  have k2 : turn q0 q2 = q2 - q0 := if_pos (by linarith)
  have k3 : turn q0 q3 = q3 - q0 := if_pos (by linarith)
  have hmem : ∀ {p}, p ∈ pts → p = pt x0 y0 ∨ p = pt x1 y0 ∨ p = pt x1 y1 ∨ p = pt x0 y1 := by
    intro p hp
    have := hpts.mem_iff.1 hp
    simpa [rect] using this
  have sx0 := sub_centre (x := x0) (s := x0 + x1) (by omega) (by omega)
  have sx1 := sub_centre (x := x1) (s := x0 + x1) (by omega) (by omega)
  have sy0 := sub_centre (x := y0) (s := y0 + y1) (by omega) (by omega)
  have sy1 := sub_centre (x := y1) (s := y0 + y1) (by omega) (by omega)
  rw [d1, ← hu] at sx0
  rw [d2, ← hu] at sx1
  rw [d3, ← hv] at sy0
  rw [d4, ← hv] at sy1
  have srt : (rect x0 y0 x1 y1).Pairwise fun p q => turn (θ (pt x0 y0)) (θ p) < turn (θ (pt x0 y0)) (θ q) := by
    simp only [rect, List.pairwise_cons, List.mem_cons, List.not_mem_nil, or_false, forall_eq_or_imp, forall_eq, t0, t1, t2, t3,
      k0, k1, k2, k3, false_imp_iff, implies_true, List.Pairwise.nil, and_true]
    refine ⟨⟨?_, ?_, ?_⟩, ⟨?_, ?_⟩, ?_⟩ <;> linarith
  have main := sort_corners_clockwise P ha (pts := pts) (by omega) (by rw [hlen]; exact sz96 P) (by rwa [hlen]) hsx hsy hcx hcy
    (θ := θ) (tl := pt x0 y0) ?_ ?_ ?_ ?_ ?_ ?_
  · rw [hlen] at main
    refine main.mono ?_
    rintro l ⟨l1, -, l3⟩
    refine List.Perm.eq_of_pairwise ?_ l3 srt (l1.trans hpts)
    intro a b _ _ h1 h2
    linarith
  · intro p hp
    rcases hmem hp with rfl | rfl | rfl | rfl
    · rw [t0, ← a0, ← sx0, ← sy0]; rfl
    · rw [t1, ← a1, ← sx1, ← sy0]; rfl
    · rw [t2, ← a2, ← sx1, ← sy1]; rfl
    · rw [t3, ← a3, ← sx0, ← sy1]; rfl
  · exact hpts.mem_iff.2 List.mem_cons_self
  · intro p hp
    rcases hmem hp with rfl | rfl | rfl | rfl <;> exact ⟨_, sum_pt (by omega) (by omega)⟩
  · intro p hp hne
    have lt : ∀ {a b : Nat}, x0 + y0 < a + b → a ≤ 1048576 → b ≤ 1048576 →
        Dbl.lt (Dbl.add Fmt.b64 (pt x0 y0).x (pt x0 y0).y) (Dbl.add Fmt.b64 (pt a b).x (pt a b).y) = true := by
      intro a b h h1 h2
      rw [sum_pt (by omega) (by omega), sum_pt h1 h2]
      exact decide_eq_true (by exact_mod_cast h)
    rcases hmem hp with rfl | rfl | rfl | rfl
    · exact absurd rfl hne
    · exact lt (by omega) (by omega) (by omega)
    · exact lt (by omega) (by omega) (by omega)
    · exact lt (by omega) (by omega) (by omega)
  · have sym : ∀ {p q}, 1 / 500000 ≤ |turn (θ (pt x0 y0)) (θ p) - turn (θ (pt x0 y0)) (θ q)| →
        1 / 500000 ≤ |turn (θ (pt x0 y0)) (θ q) - turn (θ (pt x0 y0)) (θ p)| := by
      intro p q h
      rwa [abs_sub_comm]
    refine (hpts.pairwise_iff sym).2 ?_
    simp only [rect, List.pairwise_cons, List.mem_cons, List.not_mem_nil, or_false, forall_eq_or_imp, forall_eq, t0, t1, t2, t3,
      k0, k1, k2, k3, false_imp_iff, implies_true, List.Pairwise.nil, and_true, le_abs]
    refine ⟨⟨Or.inr ?_, Or.inr ?_, Or.inr ?_⟩, ⟨Or.inr ?_, Or.inr ?_⟩, Or.inr ?_⟩ <;> linarith
  · intro p hp
    rcases hmem hp with rfl | rfl | rfl | rfl
    · exact Or.inl rfl
    · rw [t0, t1, k1, hpi]; right; constructor <;> linarith
    · rw [t0, t2, k2, hpi]; right; constructor <;> linarith
    · rw [t0, t3, k3, hpi]; right; constructor <;> linarith

/-! ### Three corners -/

theorem fillWorking_three (c0 c1 c2 : Pt) (w : Cells Pt) :
    fillWorking [c0, c1, c2] 3 w = fillWorking [c0, c1, c2, missingCorner c0 c1 c2] 4 w := by
  unfold fillWorking
  rw [if_pos rfl, if_neg (by decide)]
  simp only [forN, rdIn, List.getElem?_cons_zero, List.getElem?_cons_succ, ok_bind, bind_assoc]

/-- C60 (three corners): the call is the same as with the completed fourth corner. -/
theorem sort_corners_three (P : Plat) (at2 : Dbl → Dbl → Dbl) (width height ow oh : Nat) (c0 c1 c2 : Pt)
    (r : Option (Cells Pt)) :
    sort_corners P at2 width height ow oh [c0, c1, c2] 3 r =
      sort_corners P at2 width height ow oh [c0, c1, c2, missingCorner c0 c1 c2] 4 r := by
  have e : sortPrepare [c0, c1, c2] 3 4 = sortPrepare [c0, c1, c2, missingCorner c0 c1 c2] 4 4 := by
    funext w
    unfold sortPrepare
    rw [fillWorking_three]
  unfold sort_corners
  rw [if_neg (by decide), if_neg (by decide), if_neg (by decide), if_pos (by decide)]
  dsimp only
  rw [e]

theorem near_one {a b : Nat} (ha : a ≤ 1048576) (hb : b ≤ 1048576) : near 1 (.fin a) (.fin b) = decide (a = b) := by
  unfold near
  have e : dsub (.fin (a : ℚ)) (.fin (b : ℚ)) = .fin (((a : ℤ) - b : ℤ) : ℚ) := by
    have := add_int64 (a := (a : ℤ)) (b := -(b : ℤ)) (by rw [abs_le]; constructor <;> omega)
    push_cast at this ⊢
    rw [sub_eq_add_neg]
    exact this
  rw [e]
  unfold absDbl Dbl.lt
  dsimp only
  by_cases h : a = b
  · subst h; simp
  · have h2 : (1 : ℤ) ≤ |(a : ℤ) - b| := by
      exact Int.one_le_abs (by omega)
    have h3 : (1 : ℚ) ≤ |(((a : ℤ) - b : ℤ) : ℚ)| := by
      rw [← Int.cast_abs]
      exact_mod_cast h2
    rw [decide_eq_false h]
    apply decide_eq_false
    intro h4
    linarith

theorem lt_nat (a b : Nat) : Dbl.lt (.fin (a : ℚ)) (.fin (b : ℚ)) = decide (a < b) := by
  unfold Dbl.lt
  simp

theorem missing_of_rect {x0 y0 x1 y1 : Nat} (hx : x0 < x1) (hy : y0 < y1) (hx1 : x1 ≤ 1048576) (hy1 : y1 ≤ 1048576)
    {c0 c1 c2 m : Pt} (h : [c0, c1, c2, m].Perm (rect x0 y0 x1 y1)) : missingCorner c0 c1 c2 = m := by
  have hx0 : x0 ≤ 1048576 := by omega
  have hy0 : y0 ≤ 1048576 := by omega
  obtain ⟨ns, hns, e⟩ := rect_cases h
  have hnd : ns.Nodup := hns.nodup_iff.2 (by simp; omega)
  have hl := hns.length_eq
  match ns, hl with
  | [a, b, c, d], _ =>
    simp only [List.map_cons, List.map_nil, List.cons.injEq, and_true] at e
    obtain ⟨rfl, rfl, rfl, rfl⟩ := e
    have ma := hns.mem_iff (a := a)
    have mb := hns.mem_iff (a := b)
    have mc := hns.mem_iff (a := c)
    have md := hns.mem_iff (a := d)
    simp only [List.mem_cons, List.not_mem_nil, or_false, true_or, or_true, true_iff] at ma mb mc md
    rcases ma with rfl | rfl | rfl | rfl <;> rcases mb with rfl | rfl | rfl | rfl <;> 
      first | (exfalso; revert hnd; simp; done) | skip
    all_goals rcases mc with rfl | rfl | rfl | rfl <;> first | (exfalso; revert hnd; simp; done) | skip
    all_goals rcases md with rfl | rfl | rfl | rfl <;> first | (exfalso; revert hnd; simp; done) | skip
    all_goals
      simp [missingCorner, boundingBox, occupies, pt, near_one, lt_nat, hx, hy, hx0, hx1, hy0, hy1, hx.ne, hx.ne', hy.ne, hy.ne',
        hx.not_gt, hy.not_gt]

/-- C60 (three corners): the result consists of the three corners and one more. -/
theorem sort_corners_completes (P : Plat) {at2 : Dbl → Dbl → Dbl} (ha : AtanRange at2) (c0 c1 c2 : Pt) 
    {r : Cells Pt} (hr : 4 ≤ r.length) {width height ow oh : Nat} {sx sy : Dbl} (hsx : scaleOf width ow = .ok sx)
    (hsy : scaleOf height oh = .ok sy) :
    SortsInto (sort_corners P at2 width height ow oh [c0, c1, c2] 3 (some r)) r sx sy fun l =>
      ∃ c3, l.Perm [c0, c1, c2, c3] := by
  rw [sort_corners_three]
  exact (sort_corners_permutes P ha (pts := [c0, c1, c2, missingCorner c0 c1 c2]) (by simp) (by simpa using sz96 P)
    (by simpa using hr) hsx hsy).mono fun l h => ⟨_, h⟩

/-- C101: three corners of an upright rectangle, in any order, are completed to the rectangle and sorted. -/
theorem sort_corners_three_of_rectangle (P : Plat) {at2 : Dbl → Dbl → Dbl} (ha : AtanRange at2) (hq : AtanQuadrant at2)
    {x0 y0 x1 y1 : Nat} (hx : x0 < x1) (hy : y0 < y1) (hx1 : x1 ≤ 1048576) (hy1 : y1 ≤ 1048576)
    (hr1 : x1 - x0 ≤ 10000 * (y1 - y0)) (hr2 : y1 - y0 ≤ 10000 * (x1 - x0)) {c0 c1 c2 c3 : Pt}
    (hpts : [c0, c1, c2, c3].Perm (rect x0 y0 x1 y1)) {r : Cells Pt} (hr : 4 ≤ r.length)
    {width height ow oh : Nat} {sx sy : Dbl} (hsx : scaleOf width ow = .ok sx) (hsy : scaleOf height oh = .ok sy) :
    SortsInto (sort_corners P at2 width height ow oh [c0, c1, c2] 3 (some r)) r sx sy fun l => l = rect x0 y0 x1 y1 := by
  rw [sort_corners_three, missing_of_rect hx hy hx1 hy1 hpts]
  exact sort_corners_rectangle P ha hq hx hy hx1 hy1 hr1 hr2 hpts hr hsx hsy

/-- C102 is false: three corners of a square standing on its corner are not completed to the square, whatever
`atan2` gives: the fourth corner is the corner of the bounding box. -/
theorem sort_corners_not_parallelogram (P : Plat) {at2 : Dbl → Dbl → Dbl} (ha : AtanRange at2) 
    {r : Cells Pt} (hr : 4 ≤ r.length) {width height ow oh : Nat} {sx sy : Dbl} (hsx : scaleOf width ow = .ok sx)
    (hsy : scaleOf height oh = .ok sy) :
    SortsInto (sort_corners P at2 width height ow oh [pt 10 0, pt 0 10, pt 10 20] 3 (some r)) r sx sy fun l =>
      pt 0 0 ∈ l ∧ pt 20 10 ∉ l := by
  have e : missingCorner (pt 10 0) (pt 0 10) (pt 10 20) = pt 0 0 := by decide +kernel
  rw [sort_corners_three, e]
  refine (sort_corners_permutes P ha (pts := [pt 10 0, pt 0 10, pt 10 20, pt 0 0]) (by simp) (by simpa using sz96 P)
    (by simpa using hr) hsx hsy).mono fun l h => ?_
  rw [h.mem_iff, h.mem_iff]
  exact ⟨by simp, by simp [pt_inj]⟩

/-- Fewer than three corners: zeros, and the array is left as it is. -/
theorem sort_corners_few (P : Plat) (at2 : Dbl → Dbl → Dbl) (width height ow oh : Nat) (pts : List Pt) {n : Nat} (hn : n < 3)
    (r : Option (Cells Pt)) (hp : Heap) :
    sort_corners P at2 width height ow oh pts n r hp = .ok ((noCorners, r), hp) := by
  unfold sort_corners
  rw [if_pos hn]
  rfl

/-- With three corners, four entries are written: an array of three entries is overrun. -/
theorem sort_corners_three_overruns (P : Plat) (at2 : Dbl → Dbl → Dbl) (width height ow oh : Nat) (c0 c1 c2 : Pt)
    {r : Cells Pt} (hr : r.length ≤ 3) {hp : Heap} (hf : ∀ i, hp.fails i = false) :
    HErr (sort_corners P at2 width height ow oh [c0, c1, c2] 3 (some r)) hp := by
  have hcopy : ∀ w info, Part (copySorted 4 w info r) fun _ => False := by
    intro w info
    unfold copySorted
    have := Part.forN (n := 4) (s := r) (body := fun i result => do
      let e ← rd info i
      let p ← rd w e.index
      wr result i p) (fun i s => s.length = r.length ∧ (4 ≤ i → False)) ⟨rfl, by omega⟩ (by
        rintro i - s ⟨h1, -⟩
        refine Part.bind (Part.trivial _) fun e _ => Part.bind (Part.trivial _) fun p _ => part_wr.mono ?_
        rintro t ⟨h2, rfl⟩
        rw [List.length_set]
        exact ⟨h1, by omega⟩)
    exact this.mono fun s h => h.2 (le_refl 4)
  have harr : ∀ w c t info, Part (sortArrange at2 width height ow oh 4 w c t info r) fun _ => False := by
    intro w c t info
    unfold sortArrange
    exact Part.bind (Part.trivial _) fun _ _ => Part.bind (Part.trivial _) fun _ _ => Part.bind (Part.trivial _) fun _ _ =>
      Part.bind (hcopy _ _) fun _ h => h.elim
  apply HPart.err
  unfold sort_corners
  rw [if_neg (by decide), if_neg (by decide)]
  refine HPart.bind (HPart.malloc hf) ?_
  rintro b h1 ⟨⟨i, rfl⟩, hf1⟩
  dsimp only
  refine HPart.bind (HPart.use (Part.trivial _)) ?_
  rintro ⟨w, c, t⟩ h2 ⟨-, rfl⟩
  dsimp only
  refine HPart.bind (HPart.malloc hf1) ?_
  rintro b h3 ⟨⟨j, rfl⟩, hf3⟩
  dsimp only
  exact HPart.bind (HPart.use (harr _ _ _ _)) fun a h' h => h.1.elim

/-! ### An `atan2` that satisfies the assumptions, and a run -/

/-- The diagonal of the quadrant. -/
def diagonal : Dbl → Dbl → Dbl
  | .fin y, .fin x => .fin (if 0 < y then (if 0 < x then pi64 / 4 else pi64 * 3 / 4) else if 0 < x then -(pi64 / 4) else -(pi64 * 3 / 4))
  | _, _ => .nan

theorem diagonal_range : AtanRange diagonal := by
  intro y x
  cases y <;> cases x <;> first | exact Or.inl rfl | skip
  right
  refine ⟨_, rfl, ?_⟩
  have : (0 : ℚ) < pi64 := by unfold pi64; norm_num
  split_ifs <;> rw [abs_le] <;> constructor <;> linarith

theorem diagonal_quadrant : AtanQuadrant diagonal := by
  intro x y hx hy _ _
  have h1 : 3 < pi64 := by unfold pi64; norm_num
  have h2 : margin = 1 / 20000 := rfl
  refine ⟨_, rfl, ?_, ?_, ?_, ?_⟩
  · intro a b; rw [if_pos b, if_pos a]; constructor <;> linarith
  · intro a b; rw [if_pos b, if_neg (by linarith)]; constructor <;> linarith
  · intro a b; rw [if_neg (by linarith), if_neg (by linarith)]; constructor <;> linarith
  · intro a b; rw [if_neg (by linarith), if_pos a]; constructor <;> linarith

/-- The array after the call. -/
def sortRun (at2 : Dbl → Dbl → Dbl) (pts : List Pt) (n : Nat) : Option (Option (Cells Pt)) :=
  okVal ((sort_corners Plat.lp64 at2 100 100 100 100 pts n (some (List.replicate n none)) Heap.fresh).map fun r => r.1.2)

example : sortRun diagonal [pt 30 40, pt 10 20, pt 10 40, pt 30 20] 4 = some (some ((rect 10 20 30 40).map some)) := by
  decide +kernel

/-- Any `atan2` that is accurate to one millionth satisfies the second assumption. -/
theorem quadrant_of_accurate {at2 : Dbl → Dbl → Dbl}
    (h : ∀ x y : ℚ, x ≠ 0 → y ≠ 0 → ∃ q : ℚ, at2 (.fin y) (.fin x) = .fin q ∧
      |(q : ℝ) - Complex.arg ⟨(x : ℝ), (y : ℝ)⟩| ≤ 1 / 1000000) : AtanQuadrant at2 := by
  intro x y hx hy hxy hyx
  obtain ⟨q, e, hq⟩ := h x y hx hy
  refine ⟨q, e, ?_⟩
  obtain ⟨z, hz⟩ : ∃ z : ℂ, z = ⟨(x : ℝ), (y : ℝ)⟩ := ⟨_, rfl⟩
  rw [← hz] at hq
  have re : z.re = (x : ℝ) := by rw [hz]
  have im : z.im = (y : ℝ) := by rw [hz]
  have hx' : (x : ℝ) ≠ 0 := by exact_mod_cast hx
  have hy' : (y : ℝ) ≠ 0 := by exact_mod_cast hy
  have hne : z ≠ 0 := by
    intro h0
    rw [h0] at re
    exact hx' re.symm
  have hn : 0 < ‖z‖ := norm_pos_iff.2 hne
  have hcos : ‖z‖ * Real.cos z.arg = x := by rw [Complex.norm_mul_cos_arg, re]
  have hsin : ‖z‖ * Real.sin z.arg = y := by rw [Complex.norm_mul_sin_arg, im]
  have hle : ‖z‖ ≤ |(x : ℝ)| + |(y : ℝ)| := by rw [← re, ← im]; exact Complex.norm_le_abs_re_add_abs_im z
  have hxy' : |(x : ℝ)| ≤ 10000 * |(y : ℝ)| := by exact_mod_cast hxy
  have hyx' : |(y : ℝ)| ≤ 10000 * |(x : ℝ)| := by exact_mod_cast hyx
  have cosb : 1 / 10001 ≤ |Real.cos z.arg| := by
    have h1 : ‖z‖ * |Real.cos z.arg| = |(x : ℝ)| := by rw [← hcos, abs_mul, abs_of_pos hn]
    by_contra h2
    have h2 : |Real.cos z.arg| < 1 / 10001 := not_le.1 h2
    have := mul_lt_mul_of_pos_left h2 hn
    rw [h1] at this
    linarith
  have sinb : 1 / 10001 ≤ |Real.sin z.arg| := by
    have h1 : ‖z‖ * |Real.sin z.arg| = |(y : ℝ)| := by rw [← hsin, abs_mul, abs_of_pos hn]
    by_contra h2
    have h2 : |Real.sin z.arg| < 1 / 10001 := not_le.1 h2
    have := mul_lt_mul_of_pos_left h2 hn
    rw [h1] at this
    linarith
  have lo := Complex.neg_pi_lt_arg z
  have hi := Complex.arg_le_pi z
  have p1 := Real.pi_gt_d6
  have p2 := Real.pi_lt_d6
  have hpi1 : ((pi64 : ℚ) : ℝ) < 3.141593 := by unfold pi64; norm_num
  have hpi2 : 3.141592 < ((pi64 : ℚ) : ℝ) := by unfold pi64; norm_num
  have hmar : ((margin : ℚ) : ℝ) = 1 / 20000 := by unfold margin; norm_num
  obtain ⟨q1, q2⟩ := abs_le.1 hq
  -- the angle is at least 1/10001 away from the axes
  have away0 : 1 / 10001 ≤ |z.arg| := sinb.trans (Real.abs_sin_le_abs)
  have awayP : 1 / 10001 ≤ |Real.pi - z.arg| := by
    rw [← Real.sin_pi_sub] at sinb; exact sinb.trans Real.abs_sin_le_abs
  have awayN : 1 / 10001 ≤ |z.arg + Real.pi| := by
    rw [← abs_neg, ← Real.sin_add_pi] at sinb; exact sinb.trans Real.abs_sin_le_abs
  have awayH : 1 / 10001 ≤ |Real.pi / 2 - z.arg| := by
    rw [← Real.sin_pi_div_two_sub] at cosb; exact cosb.trans Real.abs_sin_le_abs
  have awayK : 1 / 10001 ≤ |z.arg + Real.pi / 2| := by
    rw [← Real.sin_add_pi_div_two] at cosb; exact cosb.trans Real.abs_sin_le_abs
  have cpos : ∀ {t : ℝ}, t ≤ Real.pi → -Real.pi < t → 0 < Real.cos t → |t| ≤ Real.pi / 2 := by
    intro t h1 h2 h3
    by_contra h4
    have h4 := not_le.1 h4
    have : Real.cos |t| ≤ 0 := Real.cos_nonpos_of_pi_div_two_le_of_le h4.le (by
      have : |t| ≤ Real.pi := abs_le.2 ⟨h2.le, h1⟩
      linarith)
    rw [Real.cos_abs] at this
    linarith
  have cneg : ∀ {t : ℝ}, Real.cos t < 0 → Real.pi / 2 ≤ |t| := by
    intro t h3
    by_contra h4
    have h4 := abs_lt.1 (not_le.1 h4)
    have := Real.cos_pos_of_mem_Ioo ⟨h4.1, h4.2⟩
    linarith
  have spos : 0 < y → 0 ≤ z.arg := fun h => Complex.arg_nonneg_iff.2 (by rw [im]; exact_mod_cast h.le)
  have sneg : y < 0 → z.arg < 0 := fun h => Complex.arg_neg_iff.2 (by rw [im]; exact_mod_cast h)
  have cx : 0 < x → 0 < Real.cos z.arg := by
    intro h
    have h : (0 : ℝ) < x := by exact_mod_cast h
    rw [← hcos] at h
    exact (mul_pos_iff_of_pos_left hn).1 h
  have cx' : x < 0 → Real.cos z.arg < 0 := by
    intro h
    have h : (x : ℝ) < 0 := by exact_mod_cast h
    rw [← hcos] at h
    by_contra h2
    have := mul_nonneg hn.le (not_lt.1 h2)
    linarith
  have fin : ∀ {a b : ℚ}, (a : ℝ) ≤ b → a ≤ b := fun h => by exact_mod_cast h
  refine ⟨?_, ?_, ?_, ?_⟩ <;> intro hx hy
  · have s := spos hy
    have c := (abs_le.1 (cpos hi lo (cx hx))).2
    rw [abs_of_nonneg s] at away0
    rw [abs_of_nonneg (by linarith)] at awayH
    exact ⟨fin (by rw [hmar]; linarith), fin (by push_cast; rw [hmar]; linarith)⟩
  · have s := spos hy
    have c := cneg (cx' hx)
    rw [abs_of_nonneg s] at c
    rw [abs_of_nonneg (by linarith)] at awayP
    rw [abs_of_nonpos (by linarith)] at awayH
    exact ⟨fin (by push_cast; rw [hmar]; linarith), fin (by push_cast; rw [hmar]; linarith)⟩
  · have s := sneg hy
    have c := cneg (cx' hx)
    rw [abs_of_neg s] at c
    rw [abs_of_nonneg (by linarith)] at awayN
    rw [abs_of_nonpos (by linarith)] at awayK
    exact ⟨fin (by push_cast; rw [hmar]; linarith), fin (by push_cast; rw [hmar]; linarith)⟩
  · have s := sneg hy
    have c := (abs_le.1 (cpos hi lo (cx hx))).1
    rw [abs_of_neg s] at away0
    rw [abs_of_nonneg (by linarith)] at awayK
    exact ⟨fin (by push_cast; rw [hmar]; linarith), fin (by push_cast; rw [hmar]; linarith)⟩

end FlatCV.Props
