/-
Corner sorting: bubble sort, filling arrays, angles.
-/
import Verif.Model.Sort
import Verif.Lemmas.Perspective
import Verif.Lemmas.Exif
import Verif.Spec.Sort
import Verif.Lemmas.ResizeNum
import Verif.Lemmas.FoerstnerCall

namespace FlatCV
open Model Spec

/-! ### Arrays -/

theorem fill_prefix {β : Type} {f : Nat → CM β} {F : Nat → β} {r : Cells β} {n : Nat} (hn : n ≤ r.length)
    (hf : ∀ i, i < n → f i = .ok (F i)) :
    (forN n r fun i s => do let v ← f i; wr s i v) = .ok ((List.range n).map (fun i => some (F i)) ++ r.drop n) := by
  induction n with
  | zero => simp [forN_zero]
  | succ n ih =>
    rw [forN_succ, ih (by omega) fun i hi => hf i (by omega), ok_bind, hf n (by omega), ok_bind,
      wr_ok (by simp; omega), List.set_append_right _ _ (by simp), List.length_map, List.length_range, Nat.sub_self,
      List.drop_eq_getElem_cons (by omega : n < r.length), List.set_cons_zero, List.range_succ]
    simp only [List.map_append, List.map_cons, List.map_nil, List.append_assoc, List.cons_append, List.nil_append]

theorem fill_all {β : Type} {f : Nat → CM β} {F : Nat → β} {n : Nat} (hf : ∀ i, i < n → f i = .ok (F i)) :
    (forN n (List.replicate n none) fun i s => do let v ← f i; wr s i v) = .ok (((List.range n).map F).map some) := by
  rw [fill_prefix (by simp) hf]
  simp

theorem update_all {β : Type} {f : β → CM β} {F : β → β} {L : List β} (hf : ∀ e ∈ L, f e = .ok (F e)) :
    (forN L.length (L.map some) fun i s => do
      let e ← rd s i
      let v ← f e
      wr s i v) = .ok ((L.map F).map some) := by
  have key : ∀ n, n ≤ L.length → (forN n (L.map some) fun i s => do
      let e ← rd s i
      let v ← f e
      wr s i v) = .ok (((L.take n).map F ++ L.drop n).map some) := by
    intro n
    induction n with
    | zero => simp [forN_zero]
    | succ n ih =>
      intro hn
      rw [forN_succ, ih (by omega), ok_bind, rd_map_some]
      have hl : ((L.take n).map F).length = n := by simp; omega
      have hg : ((L.take n).map F ++ L.drop n)[n]? = some L[n] := by
        rw [List.getElem?_append_right (by omega), hl, Nat.sub_self, List.getElem?_drop]
        simp [List.getElem?_eq_getElem (show n < L.length by omega)]
      rw [rdIn_ok hg, ok_bind, hf _ (List.getElem_mem _), ok_bind, wr_map_some (by simp; omega),
        List.set_append_right _ _ (by omega), hl, Nat.sub_self, List.drop_eq_getElem_cons (by omega : n < L.length),
        List.set_cons_zero, List.take_add_one, List.getElem?_eq_getElem (by omega : n < L.length)]
      simp only [Option.toList_some, List.map_append, List.map_cons, List.map_nil, List.append_assoc, List.cons_append, List.nil_append]
  have := key L.length (le_refl _)
  simpa using this

/-! ### Bubble sort -/

theorem bubble_perm {β : Type} (gt : β → β → Bool) (L : List β) :
    ∃ L' : List β, bubbleSort gt L.length (L.map some) = .ok (L'.map some) ∧ L'.Perm L ∧
      ((∀ a ∈ L, ∀ b ∈ L, gt a b = true → gt b a = false) →
       (∀ a ∈ L, ∀ b ∈ L, ∀ c ∈ L, gt a b = false → gt b c = false → gt a c = false) →
        L'.Pairwise fun a b => gt a b = false) := by
  unfold bubbleSort
  have main := forN_ok (n := L.length - 1) (s := L.map some)
    (body := fun i s => forN (L.length - 1 - i) s fun j s => do
      let a ← rd s j
      let b ← rd s (j + 1)
      if gt a b then do
        let s ← wr s j b
        wr s (j + 1) a
      else pure s)
    (fun i s => ∃ M : List β, s = M.map some ∧ M.Perm L ∧
      ((∀ a ∈ L, ∀ b ∈ L, gt a b = true → gt b a = false) →
       (∀ a ∈ L, ∀ b ∈ L, ∀ c ∈ L, gt a b = false → gt b c = false → gt a c = false) →
        ∀ p q, p < q → L.length - i ≤ q → ∀ a b, M[p]? = some a → M[q]? = some b → gt a b = false))
    ⟨L, rfl, List.Perm.refl _, fun _ _ p q _ hq a b _ hb => by
      have := (List.getElem?_eq_some_iff.1 hb).1
      omega⟩ ?_
  · obtain ⟨s, hs, M, rfl, hM, hq⟩ := main
    refine ⟨M, hs, hM, fun h1 h2 => ?_⟩
    rw [List.pairwise_iff_getElem]
    intro p q hp hq' hpq
    have hlen := hM.length_eq
    exact hq h1 h2 p q hpq (by omega) _ _ (List.getElem?_eq_getElem hp) (List.getElem?_eq_getElem hq')
  · rintro i hi s ⟨M, rfl, hM, hq⟩
    have inner := forN_ok (n := L.length - 1 - i) (s := M.map some)
      (body := fun j s => do
        let a ← rd s j
        let b ← rd s (j + 1)
        if gt a b then do
          let s ← wr s j b
          wr s (j + 1) a
        else pure s)
      (fun j s => ∃ M : List β, s = M.map some ∧ M.Perm L ∧
        ((∀ a ∈ L, ∀ b ∈ L, gt a b = true → gt b a = false) →
         (∀ a ∈ L, ∀ b ∈ L, ∀ c ∈ L, gt a b = false → gt b c = false → gt a c = false) →
          (∀ p q, p < q → L.length - i ≤ q → ∀ a b, M[p]? = some a → M[q]? = some b → gt a b = false) ∧
          (∀ p, p < j → ∀ a b, M[p]? = some a → M[j]? = some b → gt a b = false)))
      ⟨M, rfl, hM, fun h1 h2 => ⟨hq h1 h2, fun p hp => absurd hp (by omega)⟩⟩ ?_
    · obtain ⟨s, hs, M', rfl, hM', hq'⟩ := inner
      refine ⟨_, hs, M', rfl, hM', fun h1 h2 p q hpq hqi a b ha hb => ?_⟩
      obtain ⟨h3, h4⟩ := hq' h1 h2
      have hlen := hM'.length_eq
      have hql := (List.getElem?_eq_some_iff.1 hb).1
      by_cases hc : L.length - i ≤ q
      · exact h3 p q hpq hc a b ha hb
      · have e : q = L.length - 1 - i := by omega
        subst e
        exact h4 p hpq a b ha hb
    · rintro j hj s ⟨M, rfl, hM, hq⟩
      have hlen := hM.length_eq
      have hj0 : j < M.length := by omega
      have hj1 : j + 1 < M.length := by omega
      rw [rd_map_some, rd_map_some, rdIn_ok (List.getElem?_eq_getElem hj0), ok_bind,
        rdIn_ok (List.getElem?_eq_getElem hj1), ok_bind]
      have m0 : M[j] ∈ L := hM.mem_iff.1 (List.getElem_mem _)
      have m1 : M[j + 1] ∈ L := hM.mem_iff.1 (List.getElem_mem _)
      by_cases hg : gt M[j] M[j + 1] = true
      · rw [if_pos hg, wr_map_some hj0, ok_bind, wr_map_some (by simpa using hj1)]
        refine Ok.pure ⟨_, rfl, (List.set_set_perm hj0 hj1).trans hM, fun h1 h2 => ?_⟩
        obtain ⟨h3, h4⟩ := hq h1 h2
        have look : ∀ p, ((M.set j M[j + 1]).set (j + 1) M[j])[p]? =
            if p = j + 1 then some M[j] else if p = j then some M[j + 1] else M[p]? := by
          intro p
          rw [List.getElem?_set, List.getElem?_set]
          by_cases e1 : p = j + 1
          · subst e1; simp [hj1]
          · rw [if_neg (fun h => e1 h.symm), if_neg e1]
            by_cases e2 : p = j
            · subst e2; simp [hj0]
            · rw [if_neg (fun h => e2 h.symm), if_neg e2]
        constructor
        · intro p q hpq hqi a b ha hb
          have hqj : q ≠ j + 1 ∧ q ≠ j := by omega
          rw [look, if_neg hqj.1, if_neg hqj.2] at hb
          rw [look] at ha
          split_ifs at ha with e1 e2
          · cases ha
            exact h3 j q (by omega) hqi _ _ (List.getElem?_eq_getElem hj0) hb
          · cases ha
            exact h3 (j + 1) q (by omega) hqi _ _ (List.getElem?_eq_getElem hj1) hb
          · exact h3 p q hpq hqi a b ha hb
        · intro p hp a b ha hb
          rw [look, if_pos rfl] at hb
          cases hb
          rw [look, if_neg (by omega)] at ha
          split_ifs at ha with e2
          · cases ha
            exact h1 _ m0 _ m1 hg
          · exact h4 p (by omega) a _ ha (List.getElem?_eq_getElem hj0)
      · have hg' : gt M[j] M[j + 1] = false := by simpa using hg
        rw [if_neg hg]
        refine Ok.pure ⟨M, rfl, hM, fun h1 h2 => ?_⟩
        obtain ⟨h3, h4⟩ := hq h1 h2
        refine ⟨h3, fun p hp a b ha hb => ?_⟩
        rw [List.getElem?_eq_getElem hj1] at hb
        cases hb
        by_cases e : p = j
        · subst e
          rw [List.getElem?_eq_getElem hj0] at ha
          cases ha
          exact hg'
        · have ma : a ∈ L := hM.mem_iff.1 (List.mem_of_getElem? ha)
          exact h2 a ma _ m0 _ m1 (h4 p (by omega) a _ ha (List.getElem?_eq_getElem hj0)) hg'

/-! ### Angles -/

theorem rnd_twoPi : Fmt.b64.rnd twoPi = twoPi := by decide +kernel

theorem lift_small {x : ℚ} (h : |x| ≤ 2 ^ 10) : Fmt.b64.lift x = .fin (Fmt.b64.rnd x) := lift64 (by norm_num) h

theorem twoPi_bounds : 6 < twoPi ∧ twoPi < 7 := by unfold twoPi; norm_num

theorem dadd_fin {a b : ℚ} (h : |a + b| ≤ 2 ^ 10) : dadd (.fin a) (.fin b) = .fin (Fmt.b64.rnd (a + b)) := lift_small h

theorem dsub_fin {a b : ℚ} (h : |a - b| ≤ 2 ^ 10) : dsub (.fin a) (.fin b) = .fin (Fmt.b64.rnd (a - b)) := by
  show Fmt.b64.lift (a + -b) = _
  rw [← sub_eq_add_neg]
  exact lift_small h

/-- An angle after the first normalisation: NaN or in `[0, 2 pi]`. -/
def AngleIn (a : Dbl) : Prop := a = .nan ∨ ∃ q : ℚ, a = .fin q ∧ 0 ≤ q ∧ q ≤ twoPi

theorem norm_angle {a : Dbl} (h : a = .nan ∨ ∃ q : ℚ, a = .fin q ∧ |q| ≤ twoPi / 2) :
    AngleIn (if Dbl.lt a (.fin 0) then dadd a (.fin twoPi) else a) := by
  have tp := twoPi_bounds
  rcases h with rfl | ⟨q, rfl, hq⟩
  · exact Or.inl rfl
  · rw [abs_le] at hq
    by_cases h0 : q < 0
    · have e : Dbl.lt (.fin q) (.fin 0) = true := decide_eq_true h0
      rw [if_pos e, dadd_fin (by rw [abs_le]; constructor <;> linarith)]
      refine Or.inr ⟨_, rfl, rnd_nonneg _ (by linarith), ?_⟩
      exact rnd_le Fmt.b64 (by linarith) rnd_twoPi
    · have e : ¬ Dbl.lt (.fin q) (.fin 0) = true := fun h => h0 (of_decide_eq_true h)
      rw [if_neg e]
      exact Or.inr ⟨q, rfl, by linarith, by linarith [hq.2]⟩

/-- The relative angle of two angles, as computed. -/
def relOf (t x : ℚ) : ℚ :=
  let d := Fmt.b64.rnd (x - t)
  let e := if d < 0 then Fmt.b64.rnd (d + twoPi) else d
  if twoPi ≤ e then 0 else e

theorem relative_fin {t x : ℚ} (ht : 0 ≤ t ∧ t ≤ twoPi) (hx : 0 ≤ x ∧ x ≤ twoPi) :
    relativeAngle (.fin t) (.fin x) = .ok (.fin (relOf t x)) ∧ 0 ≤ relOf t x ∧ relOf t x < twoPi := by
  have tp := twoPi_bounds
  have hd : |Fmt.b64.rnd (x - t)| ≤ twoPi :=
    rnd_abs_le Fmt.b64 (by rw [abs_le]; constructor <;> linarith [ht.1, ht.2, hx.1, hx.2]) rnd_twoPi
  rw [abs_le] at hd
  have e1 : dsub (.fin x) (.fin t) = .fin (Fmt.b64.rnd (x - t)) :=
    dsub_fin (by rw [abs_le]; constructor <;> linarith [ht.1, ht.2, hx.1, hx.2])
  unfold relOf relativeAngle
  rw [e1]
  dsimp only
  generalize Fmt.b64.rnd (x - t) = d at *
  have step1 : ∀ (z : ℚ), 0 ≤ z → (whileFuel angleFuel (Dbl.fin z) fun a =>
      pure (if Dbl.lt a (.fin 0) then (dadd a (.fin twoPi), false) else (a, true))) = .ok (.fin z) := by
    intro z hz
    refine whileFuel_stop ?_
    have e : ¬ Dbl.lt (.fin z) (.fin 0) = true := fun h => absurd (of_decide_eq_true h) (not_lt.2 hz)
    rw [if_neg e]
    rfl
  have first : (whileFuel angleFuel (Dbl.fin d) fun a =>
      pure (if Dbl.lt a (.fin 0) then (dadd a (.fin twoPi), false) else (a, true))) =
      .ok (.fin (if d < 0 then Fmt.b64.rnd (d + twoPi) else d)) ∧
      0 ≤ (if d < 0 then Fmt.b64.rnd (d + twoPi) else d) ∧ (if d < 0 then Fmt.b64.rnd (d + twoPi) else d) ≤ twoPi := by
    by_cases h0 : d < 0
    · rw [if_pos h0]
      have hz : 0 ≤ Fmt.b64.rnd (d + twoPi) := rnd_nonneg _ (by linarith)
      refine ⟨?_, hz, rnd_le Fmt.b64 (by linarith) rnd_twoPi⟩
      have e : Dbl.lt (.fin d) (.fin 0) = true := decide_eq_true h0
      rw [show angleFuel = 999 + 1 from rfl, whileFuel_cont (s' := .fin (Fmt.b64.rnd (d + twoPi)))]
      · refine whileFuel_stop (fuel := 998) ?_
        have e : ¬ Dbl.lt (.fin (Fmt.b64.rnd (d + twoPi))) (.fin 0) = true :=
          fun h => absurd (of_decide_eq_true h) (not_lt.2 hz)
        rw [if_neg e]
        rfl
      · rw [if_pos e, dadd_fin (by rw [abs_le]; constructor <;> linarith)]
        rfl
    · rw [if_neg h0]
      exact ⟨step1 d (by linarith), by linarith, hd.2⟩
  obtain ⟨f1, f2, f3⟩ := first
  rw [f1, ok_bind]
  generalize (if d < 0 then Fmt.b64.rnd (d + twoPi) else d) = e at *
  by_cases h2 : twoPi ≤ e
  · have he : e = twoPi := le_antisymm f3 h2
    rw [if_pos h2]
    refine ⟨?_, le_refl _, by linarith⟩
    rw [show angleFuel = 999 + 1 from rfl, whileFuel_cont (s' := .fin 0)]
    · exact whileFuel_stop (fuel := 998) (by decide +kernel)
    · have e' : Dbl.le (.fin twoPi) (.fin e) = true := decide_eq_true h2
      rw [if_pos e', dsub_fin (by rw [he, sub_self]; norm_num), he, sub_self, rnd_zero]
      rfl
  · rw [if_neg h2]
    refine ⟨?_, f2, lt_of_not_ge h2⟩
    refine whileFuel_stop ?_
    have e' : ¬ Dbl.le (.fin twoPi) (.fin e) = true := fun h => h2 (of_decide_eq_true h)
    rw [if_neg e']
    rfl

/-- The relative angle as a function. -/
def relDbl : Dbl → Dbl → Dbl
  | .fin t, .fin x => .fin (relOf t x)
  | _, _ => .nan

theorem relative_ok {t a : Dbl} (ht : AngleIn t) (ha : AngleIn a) : relativeAngle t a = .ok (relDbl t a) := by
  have hn : ∀ {t a : Dbl}, dsub a t = .nan → relativeAngle t a = .ok .nan := by
    intro t a h
    unfold relativeAngle
    rw [h, show (whileFuel angleFuel Dbl.nan fun a =>
      pure (if Dbl.lt a (.fin 0) then (dadd a (.fin twoPi), false) else (a, true))) = .ok .nan from
        whileFuel_stop rfl, ok_bind]
    exact whileFuel_stop rfl
  rcases ht with rfl | ⟨t, rfl, ht⟩
  · rcases ha with rfl | ⟨x, rfl, hx⟩
    · exact hn rfl
    · exact hn rfl
  · rcases ha with rfl | ⟨x, rfl, hx⟩
    · exact hn rfl
    · exact (relative_fin ht hx).1

/-! ### The pieces of the call -/

theorem sqrtDbl_ok (v : Dbl) : ∃ r, sqrtDbl v = .ok r := by
  cases v with
  | nan => exact ⟨_, rfl⟩
  | inf s => exact ⟨_, rfl⟩
  | fin q =>
    unfold sqrtDbl
    by_cases h : q < 0
    · exact ⟨.nan, if_pos h⟩
    · refine ⟨.fin (Fmt.b64.rnd (sqrtMid q)), ?_⟩
      dsimp only
      rw [if_neg h, f64sqrt_ok (by linarith)]
      rfl

theorem div_nat_ok (a : Dbl) {n : Nat} (hn : n ≠ 0) : ∃ r, Dbl.div Fmt.b64 a (.fin (n : ℚ)) = .ok r := by
  have : (n : ℚ) ≠ 0 := by exact_mod_cast hn
  cases a with
  | nan => exact ⟨_, rfl⟩
  | inf s => exact ⟨_, if_neg this⟩
  | fin q => exact ⟨_, if_neg this⟩

/-- `sqrt` as a function. -/
def sqrtV (v : Dbl) : Dbl :=
  match sqrtDbl v with
  | .ok r => r
  | .error _ => .nan

theorem sqrtV_eq (v : Dbl) : sqrtDbl v = .ok (sqrtV v) := by
  obtain ⟨r, hr⟩ := sqrtDbl_ok v
  unfold sqrtV
  rw [hr]

/-- A point that is never used. -/
def noPt : Pt := ⟨.nan, .nan⟩

/-- The angle of a point seen from `c`, in `[0, 2 pi]`. -/
def angleOf (at2 : Dbl → Dbl → Dbl) (c : Dbl × Dbl) (p : Pt) : Dbl :=
  let a := at2 (dsub p.y c.2) (dsub p.x c.1)
  if Dbl.lt a (.fin 0) then dadd a (.fin twoPi) else a

/-- The distance of a point from `c`. -/
def distOf (c : Dbl × Dbl) (p : Pt) : Dbl :=
  sqrtV (dadd (dmul (dsub p.x c.1) (dsub p.x c.1)) (dmul (dsub p.y c.2) (dsub p.y c.2)))

/-- The entries before sorting. -/
def infos (at2 : Dbl → Dbl → Dbl) (c : Dbl × Dbl) (t : Nat) (pts : List Pt) : List CornerInfo :=
  (List.range pts.length).map fun i =>
    ⟨i, relDbl (angleOf at2 c (pts.getD t noPt)) (angleOf at2 c (pts.getD i noPt)), distOf c (pts.getD i noPt)⟩

theorem cornerInfo_eq (at2 : Dbl → Dbl → Dbl) (c : Dbl × Dbl) (i : Nat) (p : Pt) :
    cornerInfo at2 c i p = .ok ⟨i, angleOf at2 c p, distOf c p⟩ := by
  unfold cornerInfo
  dsimp only
  rw [sqrtV_eq, ok_bind]
  rfl

theorem angleOf_in {at2 : Dbl → Dbl → Dbl} (ha : AtanRange at2) (c : Dbl × Dbl) (p : Pt) : AngleIn (angleOf at2 c p) :=
  norm_angle (by rw [← show pi64 = twoPi / 2 by unfold pi64 twoPi; norm_num]; exact ha _ _)

theorem getD_some {β : Type} {l : List β} {i : Nat} (h : i < l.length) (d : β) : l[i]? = some (l.getD i d) := by
  rw [List.getD_eq_getElem?_getD, List.getElem?_eq_getElem h]
  rfl

theorem fillWorking_ok {pts : List Pt} (hn : 4 ≤ pts.length) :
    fillWorking pts pts.length (List.replicate pts.length none) = .ok (pts.map some) := by
  unfold fillWorking
  rw [if_neg (by omega), fill_all (F := fun i => pts.getD i noPt) fun i hi => rdIn_ok (getD_some hi _)]
  congr 2
  refine List.ext_getElem? fun i => ?_
  by_cases hi : i < pts.length
  · rw [List.getElem?_map, List.getElem?_range hi, getD_some hi noPt]
    rfl
  · rw [List.getElem?_eq_none (by simpa using hi), List.getElem?_eq_none (by omega)]

theorem centroid_ok {pts : List Pt} (hn : 0 < pts.length) :
    ∃ c, centroid pts.length (pts.map some) = .ok c ∧ IsCentre (pts.map Pt.x) c.1 ∧ IsCentre (pts.map Pt.y) c.2 := by
  unfold centroid
  obtain ⟨s, hs, h1⟩ := forN_ok (n := pts.length) (s := ((Dbl.fin 0, Dbl.fin 0) : Dbl × Dbl))
    (body := fun i s => do
      let p ← rd (pts.map some) i
      pure (dadd s.1 p.x, dadd s.2 p.y))
    (fun i (s : Dbl × Dbl) => s = (((pts.take i).map Pt.x).foldl dadd (.fin 0), ((pts.take i).map Pt.y).foldl dadd (.fin 0)))
    rfl (by
      rintro i hi s rfl
      rw [rd_map_some, rdIn_ok (List.getElem?_eq_getElem hi), ok_bind]
      refine Ok.pure ?_
      rw [List.take_add_one, List.getElem?_eq_getElem hi]
      simp only [Option.toList_some, List.map_append, List.map_cons, List.map_nil, List.foldl_append, List.foldl_cons,
        List.foldl_nil])
  rw [List.take_length] at h1
  rw [hs, ok_bind, h1]
  dsimp only
  obtain ⟨x, hx⟩ := div_nat_ok ((pts.map Pt.x).foldl dadd (.fin 0)) (n := pts.length) (by omega)
  obtain ⟨y, hy⟩ := div_nat_ok ((pts.map Pt.y).foldl dadd (.fin 0)) (n := pts.length) (by omega)
  rw [hx, ok_bind, hy, ok_bind]
  refine ⟨_, rfl, ?_, ?_⟩
  · unfold IsCentre
    rw [List.length_map]
    exact hx
  · unfold IsCentre
    rw [List.length_map]
    exact hy

/-- The sum of the coordinates, as computed. -/
def sumOf (p : Pt) : Dbl := dadd p.x p.y

theorem topLeft_ok {pts : List Pt} (hn : 0 < pts.length) :
    ∃ t, topLeft pts.length (pts.map some) = .ok t ∧ t < pts.length ∧
      ((∀ p ∈ pts, ∃ q, sumOf p = .fin q) → ∀ i, i < pts.length →
        (Dbl.lt (sumOf (pts.getD i noPt)) (sumOf (pts.getD t noPt)) = false ∧
         (i < t → Dbl.lt (sumOf (pts.getD t noPt)) (sumOf (pts.getD i noPt)) = true))) := by
  unfold topLeft
  rw [rd_map_some, rdIn_ok (getD_some hn noPt), ok_bind]
  obtain ⟨s, hs, h1, h2, h3⟩ := forN_ok (n := pts.length - 1)
    (s := ((0, dadd (pts.getD 0 noPt).x (pts.getD 0 noPt).y) : Nat × Dbl))
    (body := fun i s => do
      let p ← rd (pts.map some) (i + 1)
      pure (if Dbl.lt (dadd p.x p.y) s.2 then (i + 1, dadd p.x p.y) else s))
    (fun k (s : Nat × Dbl) => s.1 ≤ k ∧ s.2 = sumOf (pts.getD s.1 noPt) ∧
      ((∀ p ∈ pts, ∃ q, sumOf p = .fin q) → ∀ i, i ≤ k →
        (Dbl.lt (sumOf (pts.getD i noPt)) s.2 = false ∧
         (i < s.1 → Dbl.lt s.2 (sumOf (pts.getD i noPt)) = true))))
    ⟨le_refl _, rfl, fun hf i hi => by
      have e : i = 0 := by omega
      subst e
      refine ⟨?_, fun h => absurd h (by omega)⟩
      obtain ⟨q, hq⟩ := hf (pts.getD 0 noPt) (List.mem_of_getElem? (getD_some hn noPt))
      show Dbl.lt (sumOf _) (sumOf _) = false
      rw [hq]
      exact decide_eq_false (lt_irrefl _)⟩
    (by
      rintro k hk ⟨s, v⟩ ⟨h1, h2, h3⟩
      dsimp only at h1 h2 h3
      rw [rd_map_some, rdIn_ok (getD_some (show k + 1 < pts.length by omega) noPt), ok_bind]
      refine Ok.pure ?_
      dsimp only
      rw [show dadd (pts.getD (k + 1) noPt).x (pts.getD (k + 1) noPt).y = sumOf (pts.getD (k + 1) noPt) from rfl]
      by_cases hl : Dbl.lt (sumOf (pts.getD (k + 1) noPt)) v = true
      · rw [if_pos hl]
        refine ⟨le_refl _, rfl, fun hf i hi => ?_⟩
        have mem : ∀ i, i < pts.length → ∃ q, sumOf (pts.getD i noPt) = .fin q :=
          fun i hi => hf _ (List.mem_of_getElem? (getD_some hi noPt))
        obtain ⟨qn, hqn⟩ := mem (k + 1) (by omega)
        obtain ⟨qs, hqs⟩ := mem s (by omega)
        dsimp only
        rw [hqn] at hl ⊢
        rw [h2, hqs] at hl
        have hl' : qn < qs := of_decide_eq_true hl
        rcases Nat.lt_or_ge i (k + 1) with hi' | hi'
        · obtain ⟨qi, hqi⟩ := mem i (by omega)
          have := (h3 hf i (by omega)).1
          rw [hqi, h2, hqs] at this
          have hge : ¬ qi < qs := of_decide_eq_false this
          rw [hqi]
          exact ⟨decide_eq_false (by linarith), fun _ => decide_eq_true (by linarith)⟩
        · have e : i = k + 1 := by omega
          subst e
          rw [hqn]
          exact ⟨decide_eq_false (lt_irrefl _), fun h => absurd h (by omega)⟩
      · rw [if_neg hl]
        refine ⟨by dsimp only; omega, h2, fun hf i hi => ?_⟩
        dsimp only
        rcases Nat.lt_or_ge i (k + 1) with hi' | hi'
        · exact h3 hf i (by omega)
        · have e : i = k + 1 := by omega
          subst e
          exact ⟨by simpa using hl, fun h => absurd h (by omega)⟩)
  rw [hs, ok_bind]
  refine ⟨s.1, rfl, by omega, fun hf i hi => ?_⟩
  have := h3 hf i (by omega)
  rwa [h2] at this

theorem scale_ok {a b : Nat} (hb : b ≠ 0) : ∃ s, scaleOf a b = .ok s := div_nat_ok _ hb

/-- The four corners with the scale factors applied. -/
def scaled (l : List Pt) (sx sy : Dbl) : Corners Dbl :=
  let p := fun i => l.getD i noPt
  ⟨dmul (p 0).x sx, dmul (p 0).y sy, dmul (p 1).x sx, dmul (p 1).y sy, dmul (p 2).x sx, dmul (p 2).y sy,
    dmul (p 3).x sx, dmul (p 3).y sy⟩

theorem pick_ok {l : List Pt} {r : Cells Pt} (hl : 4 ≤ l.length) (sx sy : Dbl) :
    pickCorners (l.map some ++ r) sx sy 0 1 2 3 = .ok (scaled l sx sy) := by
  have look : ∀ i, i < 4 → rd (l.map some ++ r) i = .ok (l.getD i noPt) := by
    intro i hi
    refine rd_ok ?_
    rw [List.getElem?_append_left (by simp; omega), List.getElem?_map, getD_some (by omega) noPt]
    rfl
  unfold pickCorners
  rw [look 0 (by omega), ok_bind, look 1 (by omega), ok_bind, look 2 (by omega), ok_bind, look 3 (by omega), ok_bind]
  rfl

theorem arrange_ok {at2 : Dbl → Dbl → Dbl} (ha : AtanRange at2) {pts : List Pt} (hn : 4 ≤ pts.length) {t : Nat}
    (ht : t < pts.length) {width height ow oh : Nat} {sx sy : Dbl} (hsx : scaleOf width ow = .ok sx)
    (hsy : scaleOf height oh = .ok sy) (c : Dbl × Dbl) {r : Cells Pt} (hr : pts.length ≤ r.length) :
    ∃ L : List CornerInfo, L.Perm (infos at2 c t pts) ∧
      ((∀ a ∈ infos at2 c t pts, ∀ b ∈ infos at2 c t pts, shouldSwap a b = true → shouldSwap b a = false) →
       (∀ a ∈ infos at2 c t pts, ∀ b ∈ infos at2 c t pts, ∀ d ∈ infos at2 c t pts,
          shouldSwap a b = false → shouldSwap b d = false → shouldSwap a d = false) →
        L.Pairwise fun a b => shouldSwap a b = false) ∧
      sortArrange at2 width height ow oh pts.length (pts.map some) c t (List.replicate pts.length none) r =
        .ok (scaled (L.map fun e => pts.getD e.index noPt) sx sy,
          (L.map fun e => pts.getD e.index noPt).map some ++ r.drop pts.length) := by
  unfold sortArrange
  have h1 : fillInfo at2 pts.length c (pts.map some) (List.replicate pts.length none) =
      .ok (((List.range pts.length).map fun i =>
        (⟨i, angleOf at2 c (pts.getD i noPt), distOf c (pts.getD i noPt)⟩ : CornerInfo)).map some) := by
    unfold fillInfo
    rw [← fill_all (f := fun i => do
      let p ← rd (pts.map some) i
      cornerInfo at2 c i p)]
    · congr 1
      funext i s
      cases rd (pts.map some) i <;> rfl
    · intro i hi
      rw [rd_map_some, rdIn_ok (getD_some hi noPt), ok_bind, cornerInfo_eq]
  rw [h1, ok_bind]
  have h2 : makeRelative pts.length t (((List.range pts.length).map fun i =>
        (⟨i, angleOf at2 c (pts.getD i noPt), distOf c (pts.getD i noPt)⟩ : CornerInfo)).map some) =
      .ok ((infos at2 c t pts).map some) := by
    unfold makeRelative
    have hg : ((List.range pts.length).map fun i =>
        (⟨i, angleOf at2 c (pts.getD i noPt), distOf c (pts.getD i noPt)⟩ : CornerInfo))[t]? =
        some ⟨t, angleOf at2 c (pts.getD t noPt), distOf c (pts.getD t noPt)⟩ := by
      rw [List.getElem?_map, List.getElem?_range ht]
      rfl
    rw [rd_map_some, rdIn_ok hg, ok_bind]
    have := update_all (L := (List.range pts.length).map fun i =>
        (⟨i, angleOf at2 c (pts.getD i noPt), distOf c (pts.getD i noPt)⟩ : CornerInfo))
      (f := fun e => do
        let a ← relativeAngle (angleOf at2 c (pts.getD t noPt)) e.angle
        pure { e with angle := a })
      (F := fun e => { e with angle := relDbl (angleOf at2 c (pts.getD t noPt)) e.angle }) (by
        intro e he
        obtain ⟨i, -, rfl⟩ := List.mem_map.1 he
        dsimp only
        rw [relative_ok (angleOf_in ha _ _) (angleOf_in ha _ _), ok_bind]
        rfl)
    rw [List.length_map, List.length_range] at this
    rw [show (infos at2 c t pts).map some = _ by
      unfold infos
      exact congrArg (List.map some) (List.map_map (f := fun i =>
        (⟨i, angleOf at2 c (pts.getD i noPt), distOf c (pts.getD i noPt)⟩ : CornerInfo))
        (g := fun e => { e with angle := relDbl (angleOf at2 c (pts.getD t noPt)) e.angle })).symm, ← this]
    congr 1
    funext i s
    cases rd s i with
    | error e => rfl
    | ok e =>
      simp only [ok_bind]
      cases relativeAngle (angleOf at2 c (pts.getD t noPt)) e.angle <;> rfl
  rw [h2, ok_bind]
  have hlen : (infos at2 c t pts).length = pts.length := by unfold infos; simp
  obtain ⟨L, h3, h4, h5⟩ := bubble_perm shouldSwap (infos at2 c t pts)
  rw [hlen] at h3
  refine ⟨L, h4, h5, ?_⟩
  rw [h3, ok_bind]
  have hL : L.length = pts.length := h4.length_eq.trans hlen
  have hidx : ∀ e ∈ L, e.index < pts.length := by
    intro e he
    obtain ⟨i, hi, rfl⟩ := List.mem_map.1 (h4.mem_iff.1 he)
    exact List.mem_range.1 hi
  have h6 : copySorted pts.length (pts.map some) (L.map some) r =
      .ok ((L.map fun e => pts.getD e.index noPt).map some ++ r.drop pts.length) := by
    unfold copySorted
    have := fill_prefix (f := fun i => do
      let e ← rd (L.map some) i
      rd (pts.map some) e.index) (F := fun i => pts.getD (L.getD i ⟨0, .nan, .nan⟩).index noPt) hr (by
        intro i hi
        rw [rd_map_some, rdIn_ok (getD_some (by omega) (⟨0, .nan, .nan⟩ : CornerInfo)), ok_bind, rd_map_some]
        exact rdIn_ok (getD_some (hidx _ (List.mem_of_getElem? (getD_some (by omega) _))) _))
    have e2 : (List.range pts.length).map (fun i => some (pts.getD (L.getD i ⟨0, .nan, .nan⟩).index noPt)) =
        (L.map fun e => pts.getD e.index noPt).map some := by
      refine List.ext_getElem? fun i => ?_
      by_cases hi : i < pts.length
      · rw [List.getElem?_map, List.getElem?_range hi, List.getElem?_map, List.getElem?_map,
          getD_some (by omega : i < L.length) (⟨0, .nan, .nan⟩ : CornerInfo)]
        rfl
      · rw [List.getElem?_eq_none (by simpa using hi), List.getElem?_eq_none (by simp; omega)]
    rw [← e2, ← this]
    congr 1
    funext i s
    cases rd (L.map some) i <;> rfl
  rw [h6, ok_bind, hsx, ok_bind, hsy, ok_bind, pick_ok (by simp; omega), ok_bind]
  rfl

theorem perm_points {at2 : Dbl → Dbl → Dbl} {c : Dbl × Dbl} {t : Nat} {pts : List Pt} {L : List CornerInfo}
    (h : L.Perm (infos at2 c t pts)) : (L.map fun e => pts.getD e.index noPt).Perm pts := by
  refine (h.map _).trans (List.Perm.of_eq ?_)
  unfold infos
  rw [List.map_map]
  refine List.ext_getElem? fun i => ?_
  by_cases hi : i < pts.length
  · rw [List.getElem?_map, List.getElem?_range hi, getD_some hi noPt]
    rfl
  · rw [List.getElem?_eq_none (by simpa using hi), List.getElem?_eq_none (by omega)]

/-! ### The order -/

theorem free_during {hp : Heap} {m i : Nat} {J : List Nat} (hm : i ∈ J) :
    free (hp.next + i) (duringCall hp m J) = .ok ((), duringCall hp m (J.erase i)) := by
  have hinj : Function.Injective (hp.next + ·) := fun a b hab => by simpa using hab
  unfold free duringCall
  rw [if_pos (List.mem_append_left _ (List.mem_map_of_mem hm))]
  rw [List.erase_append_left _ (List.mem_map_of_mem (f := (hp.next + ·)) hm), List.map_erase hinj]

/-- An angle in `[-pi, pi]` brought into `[0, 2 pi]`. -/
def normOf (a : ℚ) : ℚ := if a < 0 then Fmt.b64.rnd (a + twoPi) else a

theorem rnd_near {x : ℚ} (h : |x| ≤ 64) : |Fmt.b64.rnd x - x| ≤ 1 / 10 ^ 9 := by
  refine (rnd64_err_le (h.trans (by norm_num : (64 : ℚ) ≤ 2 ^ 6)) (by norm_num)).trans (by norm_num)

theorem turn_self (t : ℚ) : turn t t = 0 := by unfold turn; rw [if_pos (le_refl _), sub_self]

theorem rel_self (t : ℚ) : relOf t t = 0 := by
  have tp := twoPi_bounds
  unfold relOf
  dsimp only
  rw [sub_self, rnd_zero, if_neg (lt_irrefl _), if_neg (by linarith)]

theorem rel_turn {t a : ℚ} (ht : |t| ≤ pi64) (ha : |a| ≤ pi64)
    (h : 1 / 500000 ≤ turn t a ∧ turn t a ≤ 2 * pi64 - 1 / 500000) :
    |relOf (normOf t) (normOf a) - turn t a| ≤ 1 / 10 ^ 8 := by
  have tp := twoPi_bounds
  have hpi : pi64 = twoPi / 2 := by unfold pi64 twoPi; norm_num
  rw [hpi] at ht ha
  have norm : ∀ z : ℚ, |z| ≤ twoPi / 2 → (normOf z = z ∧ 0 ≤ z) ∨ (|normOf z - (z + twoPi)| ≤ 1 / 10 ^ 9 ∧ z < 0) := by
    intro z hz
    rw [abs_le] at hz
    unfold normOf
    by_cases h0 : z < 0
    · rw [if_pos h0]
      exact Or.inr ⟨rnd_near (by rw [abs_le]; constructor <;> linarith), h0⟩
    · rw [if_neg h0]
      exact Or.inl ⟨rfl, by linarith⟩
  have bt := norm t ht
  have ba := norm a ha
  rw [abs_le] at ht ha
  unfold turn at h ⊢
  rw [hpi] at h ⊢
  generalize normOf t = T at *
  generalize normOf a = A at *
  have bA : |A - T| ≤ 16 := by
    rw [abs_le]
    rcases bt with ⟨rfl, -⟩ | ⟨bt, -⟩ <;> rcases ba with ⟨rfl, -⟩ | ⟨ba, -⟩ <;> (try rw [abs_le] at bt) <;>
      (try rw [abs_le] at ba) <;> constructor <;> linarith
  have e1 := rnd_near (x := A - T) (by linarith)
  unfold relOf
  dsimp only
  generalize Fmt.b64.rnd (A - T) = d at *
  have bd : |d + twoPi| ≤ 64 := by
    rw [abs_le] at e1 bA ⊢
    constructor <;> linarith [e1.1, e1.2, bA.1, bA.2]
  have e2 := rnd_near bd
  generalize Fmt.b64.rnd (d + twoPi) = e at *
  rw [abs_le] at e1 e2 ⊢
  rcases bt with ⟨rfl, st⟩ | ⟨bt, st⟩ <;> rcases ba with ⟨rfl, sa⟩ | ⟨ba, sa⟩ <;> (try rw [abs_le] at bt) <;>
      (try rw [abs_le] at ba) <;> split_ifs at h ⊢ <;> constructor <;> linarith

theorem angleOf_fin {at2 : Dbl → Dbl → Dbl} {c : Dbl × Dbl} {p : Pt} {q : ℚ}
    (h : at2 (dsub p.y c.2) (dsub p.x c.1) = .fin q) (hq : |q| ≤ pi64) : angleOf at2 c p = .fin (normOf q) := by
  have tp := twoPi_bounds
  have hpi : pi64 = twoPi / 2 := by unfold pi64 twoPi; norm_num
  rw [hpi, abs_le] at hq
  unfold angleOf normOf
  dsimp only
  rw [h]
  by_cases h0 : q < 0
  · have e : Dbl.lt (.fin q) (.fin 0) = true := decide_eq_true h0
    rw [if_pos e, if_pos h0]
    exact dadd_fin (by rw [abs_le]; constructor <;> linarith)
  · have e : ¬ Dbl.lt (.fin q) (.fin 0) = true := fun h => h0 (of_decide_eq_true h)
    rw [if_neg e, if_neg h0]

theorem near_far {a b : ℚ} (h : 1 / 600000 ≤ |a - b|) (hb : |a - b| ≤ 64) : near tiny6 (.fin a) (.fin b) = false := by
  unfold near
  rw [dsub_fin (hb.trans (by norm_num))]
  refine decide_eq_false ?_
  have := rnd_near hb
  have h2 : |a - b| ≤ |Fmt.b64.rnd (a - b)| + |Fmt.b64.rnd (a - b) - (a - b)| := by
    have := abs_sub_abs_le_abs_sub (a - b) (Fmt.b64.rnd (a - b))
    rw [abs_sub_comm (a - b) (Fmt.b64.rnd (a - b))] at this
    linarith
  unfold tiny6
  rw [not_lt]
  norm_num at this h h2 ⊢
  linarith

theorem dlt_irrefl (a : Dbl) : Dbl.lt a a = false := by
  cases a with
  | nan => rfl
  | inf s => cases s <;> rfl
  | fin q => exact decide_eq_false (lt_irrefl _)

/-- For separated directions the exchange condition compares turns. -/
theorem swap_iff {at2 : Dbl → Dbl → Dbl} {c : Dbl × Dbl} {t : Nat} {pts : List Pt} {θ : Pt → ℚ}
    (hθ : ∀ p ∈ pts, at2 (dsub p.y c.2) (dsub p.x c.1) = .fin (θ p) ∧ |θ p| ≤ pi64) (ht : t < pts.length)
    (hsep : pts.Pairwise fun p q => 1 / 500000 ≤ |turn (θ (pts.getD t noPt)) (θ p) - turn (θ (pts.getD t noPt)) (θ q)|)
    (hwin : ∀ p ∈ pts, p = pts.getD t noPt ∨ (1 / 500000 ≤ turn (θ (pts.getD t noPt)) (θ p) ∧
      turn (θ (pts.getD t noPt)) (θ p) ≤ 2 * pi64 - 1 / 500000)) {i j : Nat} (hi : i < pts.length) (hj : j < pts.length)
    {a b : CornerInfo}
    (ha : a = ⟨i, relDbl (angleOf at2 c (pts.getD t noPt)) (angleOf at2 c (pts.getD i noPt)), distOf c (pts.getD i noPt)⟩)
    (hb : b = ⟨j, relDbl (angleOf at2 c (pts.getD t noPt)) (angleOf at2 c (pts.getD j noPt)), distOf c (pts.getD j noPt)⟩) :
    shouldSwap a b = decide (turn (θ (pts.getD t noPt)) (θ (pts.getD j noPt)) <
      turn (θ (pts.getD t noPt)) (θ (pts.getD i noPt))) := by
  have tp := twoPi_bounds
  have hpi : pi64 = twoPi / 2 := by unfold pi64 twoPi; norm_num
  have mem : ∀ k, k < pts.length → pts.getD k noPt ∈ pts := fun k hk => List.mem_of_getElem? (getD_some hk noPt)
  by_cases hij : i = j
  · subst hij
    rw [ha, hb]
    unfold shouldSwap
    dsimp only
    rw [dlt_irrefl, dlt_irrefl]
    simp
  · have hT := hθ _ (mem t ht)
    have val : ∀ k, k < pts.length → ∃ ρ : ℚ, relDbl (angleOf at2 c (pts.getD t noPt)) (angleOf at2 c (pts.getD k noPt)) = .fin ρ ∧
        |ρ - turn (θ (pts.getD t noPt)) (θ (pts.getD k noPt))| ≤ 1 / 10 ^ 8 ∧
        0 ≤ turn (θ (pts.getD t noPt)) (θ (pts.getD k noPt)) ∧ turn (θ (pts.getD t noPt)) (θ (pts.getD k noPt)) ≤ 7 := by
      intro k hk
      have hK := hθ _ (mem k hk)
      rw [angleOf_fin hT.1 hT.2, angleOf_fin hK.1 hK.2]
      refine ⟨_, rfl, ?_⟩
      rcases hwin _ (mem k hk) with e | e
      · rw [e, rel_self, turn_self]
        norm_num
      · exact ⟨rel_turn hT.2 hK.2 e, by linarith [e.1], by linarith [e.2]⟩
    obtain ⟨ρ, r1, r2, r3, r4⟩ := val i hi
    obtain ⟨σ, s1, s2, s3, s4⟩ := val j hj
    have sep : 1 / 500000 ≤ |turn (θ (pts.getD t noPt)) (θ (pts.getD i noPt)) -
        turn (θ (pts.getD t noPt)) (θ (pts.getD j noPt))| := by
      rw [List.pairwise_iff_getElem] at hsep
      have g : ∀ k (hk : k < pts.length), pts.getD k noPt = pts[k] := fun k hk => by
        rw [List.getD_eq_getElem?_getD, List.getElem?_eq_getElem hk]
        rfl
      rcases Nat.lt_or_ge i j with h | h
      · have := hsep i j hi hj h
        rwa [← g i hi, ← g j hj] at this
      · have := hsep j i hj hi (by omega)
        rw [← g i hi, ← g j hj] at this
        rwa [abs_sub_comm]
    rw [r1] at ha
    rw [s1] at hb
    generalize turn (θ (pts.getD t noPt)) (θ (pts.getD i noPt)) = u at *
    generalize turn (θ (pts.getD t noPt)) (θ (pts.getD j noPt)) = v at *
    rw [ha, hb]
    unfold shouldSwap
    dsimp only
    rw [abs_le] at r2 s2
    have far : near tiny6 (.fin ρ) (.fin σ) = false := by
      refine near_far ?_ ?_
      · rw [le_abs] at sep ⊢
        rcases sep with h | h
        · exact Or.inl (by linarith)
        · exact Or.inr (by linarith)
      · rw [abs_le]
        constructor <;> linarith
    rw [far, Bool.false_and]
    rw [le_abs] at sep
    by_cases hlt : v < u
    · have h' : Dbl.lt (.fin σ) (.fin ρ) = true := decide_eq_true (by rcases sep with h | h <;> linarith)
      rw [if_pos h', decide_eq_true hlt]
    · have h' : ¬ Dbl.lt (.fin σ) (.fin ρ) = true := fun h' => by
        have := of_decide_eq_true h'
        rcases sep with h | h <;> linarith
      rw [if_neg h', decide_eq_false hlt]

end FlatCV
