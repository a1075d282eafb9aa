/-
Lemmas about the selection step of corner detection.
-/
import Verif.Model.Detect
import Verif.Props.Sort
import Verif.Lemmas.Track

namespace FlatCV.Props
open FlatCV FlatCV.Model FlatCV.Spec

/-- The length of a vector with integer coordinates is zero or at least one. -/
theorem len_ok {a b : ℤ} (ha : |a| ≤ 1048576) (hb : |b| ≤ 1048576) :
    ∃ s : ℚ, sqrtDbl (dadd (dmul (.fin a) (.fin a)) (dmul (.fin b) (.fin b))) = .ok (.fin s) ∧ (s = 0 ∨ (1 ≤ s ∧ s ≤ 2097152)) := by
  have sq : ∀ {z : ℤ}, |z| ≤ 1048576 → 0 ≤ z * z ∧ z * z ≤ 1099511627776 := by
    intro z hz
    rw [← abs_mul_abs_self]
    have := abs_nonneg z
    constructor <;> nlinarith
  obtain ⟨a1, a2⟩ := sq ha
  obtain ⟨b1, b2⟩ := sq hb
  unfold dadd dmul
  rw [mul_int64 (by rw [abs_of_nonneg a1]; omega), mul_int64 (by rw [abs_of_nonneg b1]; omega),
    add_int64 (by rw [abs_of_nonneg (by omega)]; omega)]
  have h0 : (0 : ℚ) ≤ ((a * a + b * b : ℤ) : ℚ) := by exact_mod_cast Int.add_nonneg a1 b1
  unfold sqrtDbl
  dsimp only
  rw [if_neg (not_lt.2 h0), f64sqrt_ok h0]
  refine ⟨_, rfl, ?_⟩
  by_cases hz : a * a + b * b = 0
  · left
    have r0 : Fmt.b64.Rep 0 := by simpa using rep64_int (z := 0) (by norm_num)
    have h1 := f64sqrt_le r0 (le_refl 0) h0 (by rw [hz]; norm_num)
    have h2 := le_f64sqrt r0 (le_refl 0) (s := ((a * a + b * b : ℤ) : ℚ)) (by simpa using h0)
    exact le_antisymm h1 h2
  · right
    have r1 : Fmt.b64.Rep 1 := by simpa using rep64_int (z := 1) (by norm_num)
    have r2 : Fmt.b64.Rep 2097152 := by simpa using rep64_int (z := 2097152) (by norm_num)
    have h1 : (1 : ℚ) ≤ ((a * a + b * b : ℤ) : ℚ) := by
      have : 1 ≤ a * a + b * b := by omega
      exact_mod_cast this
    have h2 : ((a * a + b * b : ℤ) : ℚ) ≤ 2097152 * 2097152 := by
      have : a * a + b * b ≤ 2097152 * 2097152 := by omega
      exact_mod_cast this
    exact ⟨le_f64sqrt r1 (by norm_num) (by simpa using h1), f64sqrt_le r2 (by norm_num) h0 h2⟩

theorem sub_pts {a b : Nat} (ha : a ≤ 1048576) (hb : b ≤ 1048576) :
    dsub (.fin (a : ℚ)) (.fin (b : ℚ)) = .fin (((a : ℤ) - b : ℤ) : ℚ) := by
  have := add_int64 (a := (a : ℤ)) (b := -(b : ℤ)) (by rw [abs_le]; constructor <;> omega)
  push_cast at this ⊢
  rw [sub_eq_add_neg]
  exact this

/-- A point with natural coordinates up to 2^20. -/
def GridPt (p : Pt) : Prop := ∃ x y : Nat, p = pt x y ∧ x ≤ 1048576 ∧ y ≤ 1048576

theorem angleAt_ok (asn : Dbl → Dbl) {p c n : Pt} (hp : GridPt p) (hc : GridPt c) (hn : GridPt n) :
    ∃ a, angleAt asn p c n = .ok a := by
  obtain ⟨px, py, rfl, p1, p2⟩ := hp
  obtain ⟨cx, cy, rfl, c1, c2⟩ := hc
  obtain ⟨nx, ny, rfl, n1, n2⟩ := hn
  unfold angleAt pt
  dsimp only
  rw [sub_pts p1 c1, sub_pts p2 c2, sub_pts n1 c1, sub_pts n2 c2]
  obtain ⟨s, hs, hs'⟩ := len_ok (a := (px : ℤ) - cx) (b := (py : ℤ) - cy) (by rw [abs_le]; constructor <;> omega)
    (by rw [abs_le]; constructor <;> omega)
  obtain ⟨t, ht, ht'⟩ := len_ok (a := (nx : ℤ) - cx) (b := (ny : ℤ) - cy) (by rw [abs_le]; constructor <;> omega)
    (by rw [abs_le]; constructor <;> omega)
  rw [hs, ok_bind, ht, ok_bind]
  by_cases z : s = 0 ∨ t = 0
  · rw [if_pos (by rcases z with rfl | rfl <;> simp [isZero])]
    exact ⟨_, rfl⟩
  · obtain ⟨z1, z2⟩ := not_or.1 z
    obtain ⟨s1, s2⟩ := hs'.resolve_left z1
    obtain ⟨t1, t2⟩ := ht'.resolve_left z2
    rw [if_neg (by simp [isZero, z1, z2])]
    have hm : dmul (.fin s) (.fin t) = .fin (Fmt.b64.rnd (s * t)) := by
      refine lift64 (k := 50) (by norm_num) ?_
      rw [abs_of_nonneg (by nlinarith)]
      nlinarith
    have hpos : (1 : ℚ) ≤ Fmt.b64.rnd (s * t) := by
      have r1 : Fmt.b64.Rep 1 := by simpa using rep64_int (z := 1) (by norm_num)
      exact le_rnd _ (by nlinarith) r1.rnd
    rw [hm]
    have dv : ∀ (v : Dbl) {q : ℚ}, q ≠ 0 → ∃ r, Dbl.div Fmt.b64 v (.fin q) = .ok r := by
      intro v q hq
      cases v with
      | nan => exact ⟨_, rfl⟩
      | inf b => exact ⟨_, if_neg hq⟩
      | fin a => exact ⟨_, if_neg hq⟩
    obtain ⟨r, hr⟩ := dv (dsub (dmul (.fin (((px : ℤ) - cx : ℤ) : ℚ)) (.fin (((ny : ℤ) - cy : ℤ) : ℚ)))
      (dmul (.fin (((py : ℤ) - cy : ℤ) : ℚ)) (.fin (((nx : ℤ) - cx : ℤ) : ℚ)))) (q := Fmt.b64.rnd (s * t)) (by linarith)
    rw [hr, ok_bind]
    exact dv _ (by unfold mPi; norm_num)

theorem fillAngles_ok (asn : Dbl → Dbl) {l : List Pt} (hl : ∀ p ∈ l, GridPt p) (hn : 0 < l.length)
    (rest : Cells Pt) :
    ∃ (as : List Dbl) (L : List AngleIndex), L.map AngleIndex.index = List.range l.length ∧
      fillAngles asn l.length (l.map some ++ rest) (List.replicate l.length none) (List.replicate l.length none) =
        .ok (as.map some, L.map some) := by
  have look : ∀ i, i < l.length → rd (l.map some ++ rest) i = .ok (l.getD i noPt) := by
    intro i hi
    unfold rd
    rw [List.getElem?_append_left (by simpa using hi), List.getElem?_map, getD_some hi noPt]
    rfl
  have grid : ∀ i, i < l.length → GridPt (l.getD i noPt) := fun i hi => hl _ (List.mem_of_getElem? (getD_some hi noPt))
  have ip : ∀ i, i < l.length → u32 (u32sub i 1 + l.length) % l.length < l.length ∧ u32 (i + 1) % l.length < l.length :=
    fun i _ => ⟨Nat.mod_lt _ hn, Nat.mod_lt _ hn⟩
  have hA : ∀ i, ∃ a, i < l.length → angleAt asn (l.getD (u32 (u32sub i 1 + l.length) % l.length) noPt) (l.getD i noPt)
      (l.getD (u32 (i + 1) % l.length) noPt) = .ok a := by
    intro i
    by_cases hi : i < l.length
    · obtain ⟨a, ha⟩ := angleAt_ok asn (grid _ (ip i hi).1) (grid i hi) (grid _ (ip i hi).2)
      exact ⟨a, fun _ => ha⟩
    · exact ⟨.nan, fun h => absurd h hi⟩
  obtain ⟨A, hA⟩ := Classical.axiomOfChoice hA
  refine ⟨(List.range l.length).map A, (List.range l.length).map fun i => ⟨i, absDbl (A i)⟩, ?_, ?_⟩
  · rw [List.map_map]
    exact List.map_id _
  · unfold fillAngles
    have key : ∀ n, n ≤ l.length → (forN n ((List.replicate l.length none, List.replicate l.length none) :
        Cells Dbl × Cells AngleIndex) fun i s => do
        let prev ← rd (l.map some ++ rest) (u32 (u32sub i 1 + l.length) % l.length)
        let curr ← rd (l.map some ++ rest) i
        let next ← rd (l.map some ++ rest) (u32 (i + 1) % l.length)
        let a ← angleAt asn prev curr next
        let angles ← wr s.1 i a
        let infos ← wr s.2 i ⟨i, absDbl a⟩
        pure (angles, infos)) =
        .ok ((List.range n).map (fun i => some (A i)) ++ (List.replicate l.length none).drop n,
          (List.range n).map (fun i => some (⟨i, absDbl (A i)⟩ : AngleIndex)) ++ (List.replicate l.length none).drop n) := by
      intro n
      induction n with
      | zero => intro _; simp [forN_zero]
      | succ n ih =>
        intro hn'
        rw [forN_succ, ih (by omega), ok_bind, look _ (ip n (by omega)).1, ok_bind, look n (by omega), ok_bind,
          look _ (ip n (by omega)).2, ok_bind, hA n (by omega), ok_bind]
        dsimp only
        rw [wr_ok (by simp; omega), ok_bind, wr_ok (by simp; omega), ok_bind]
        have st : ∀ {β : Type} (v : β) (f : Nat → Option β), f n = some v →
            ((List.range n).map f ++ (List.replicate l.length none).drop n).set n (some v) =
              (List.range (n + 1)).map f ++ (List.replicate l.length none).drop (n + 1) := by
          intro β v f hv
          rw [List.set_append_right _ _ (by simp), List.length_map, List.length_range, Nat.sub_self,
            List.drop_eq_getElem_cons (by simp; omega : n < (List.replicate l.length (none : Option β)).length),
            List.set_cons_zero, List.range_succ, List.map_append, ← hv]
          simp only [List.map_cons, List.map_nil, List.append_assoc, List.cons_append, List.nil_append]
        rw [st _ (fun i => some (A i)) rfl, st _ (fun i => some (⟨i, absDbl (A i)⟩ : AngleIndex)) rfl]
        rfl
    rw [key _ (le_refl _)]
    simp

theorem topFour_ok {l : List Pt} (h4 : 4 ≤ l.length) (rest : Cells Pt) {L : List AngleIndex}
    (hL : L.map AngleIndex.index = List.range l.length) (sx sy : Dbl) :
    ∃ q : List Pt, q.Sublist l ∧ q.length = 4 ∧
      topFour (l.map some ++ rest) l.length (L.map some) sx sy = .ok (scaled q sx sy) := by
  have hlen : L.length = l.length := by
    have := congrArg List.length hL
    simpa using this
  unfold topFour
  obtain ⟨M, hM, hp, -⟩ := bubble_perm (fun a b : AngleIndex => Dbl.lt a.angle_abs b.angle_abs) L
  rw [hlen] at hM
  rw [hM, ok_bind]
  have hMl : M.length = l.length := hp.length_eq.trans hlen
  have hMi : (M.map AngleIndex.index).Perm (List.range l.length) := by rw [← hL]; exact hp.map _
  obtain ⟨a, b, c, d, M', rfl⟩ : ∃ a b c d M', M = a :: b :: c :: d :: M' := by
    match M, hMl with
    | a :: b :: c :: d :: M', _ => exact ⟨a, b, c, d, M', rfl⟩
    | [], h => simp at h; omega
    | [_], h => simp at h; omega
    | [_, _], h => simp at h; omega
    | [_, _, _], h => simp at h; omega
  have htop : (forN 4 (List.replicate 4 none : Cells Nat) fun i top => do
      let e ← rd ((a :: b :: c :: d :: M').map some) i
      wr top i e.index) = .ok ([a.index, b.index, c.index, d.index].map some) := rfl
  rw [htop, ok_bind]
  obtain ⟨T, hT, hTp, hTs⟩ := bubble_perm (fun a b : Nat => decide (b < a)) [a.index, b.index, c.index, d.index]
  have hTs := hTs (fun x _ y _ h => decide_eq_false (by have := of_decide_eq_true h; omega))
    (fun x _ y _ z _ h1 h2 => decide_eq_false (by
      have := of_decide_eq_false h1
      have := of_decide_eq_false h2
      omega))
  rw [show [a.index, b.index, c.index, d.index].length = 4 from rfl] at hT
  rw [hT, ok_bind]
  have nd : (a.index :: b.index :: c.index :: d.index :: M'.map AngleIndex.index).Nodup :=
    (hMi.nodup_iff).2 List.nodup_range
  have nd4 : [a.index, b.index, c.index, d.index].Nodup := by
    have : [a.index, b.index, c.index, d.index].Sublist (a.index :: b.index :: c.index :: d.index :: M'.map AngleIndex.index) := by
      simp
    exact nd.sublist this
  have hTn : T.Nodup := hTp.nodup_iff.2 nd4
  have hlt : ∀ i ∈ T, i < l.length := by
    intro i hi
    have h1 := hTp.mem_iff.1 hi
    have h2 : i ∈ (a :: b :: c :: d :: M').map AngleIndex.index := by
      simp only [List.mem_cons, List.not_mem_nil, or_false, List.map_cons] at h1 ⊢
      tauto
    exact List.mem_range.1 (hMi.mem_iff.1 h2)
  obtain ⟨i0, i1, i2, i3, rfl⟩ : ∃ i0 i1 i2 i3, T = [i0, i1, i2, i3] := by
    match T, hTp.length_eq with
    | [a, b, c, d], _ => exact ⟨a, b, c, d, rfl⟩
  have hs : [i0, i1, i2, i3].Pairwise (· < ·) := by
    refine (hTs.and hTn).imp ?_
    rintro x y ⟨h1, h2⟩
    have := of_decide_eq_false h1
    omega
  refine ⟨[i0, i1, i2, i3].map fun i => l.getD i noPt, ?_, rfl, ?_⟩
  · have h1 : [i0, i1, i2, i3].Sublist (List.range l.length) := by
      refine List.sublist_of_subperm_of_pairwise (r := (· < ·)) ?_ hs List.pairwise_lt_range
      refine (List.subperm_of_subset hTn ?_)
      intro i hi
      exact List.mem_range.2 (hlt i hi)
    have h2 := h1.map fun i => l.getD i noPt
    have h3 : (List.range l.length).map (fun i => l.getD i noPt) = l := by
      refine List.ext_getElem? fun i => ?_
      by_cases hi : i < l.length
      · rw [List.getElem?_map, List.getElem?_range hi, getD_some hi noPt]
        rfl
      · rw [List.getElem?_eq_none (by simpa using hi), List.getElem?_eq_none (by omega)]
    rwa [h3] at h2
  · have look : ∀ i ∈ [i0, i1, i2, i3], rd (l.map some ++ rest) i = .ok (l.getD i noPt) := by
      intro i hi
      unfold rd
      rw [List.getElem?_append_left (by simpa using hlt i hi), List.getElem?_map, getD_some (hlt i hi) noPt]
      rfl
    show pickCorners (l.map some ++ rest) sx sy i0 i1 i2 i3 = _
    unfold pickCorners
    rw [look i0 (by simp), ok_bind, look i1 (by simp), ok_bind, look i2 (by simp), ok_bind, look i3 (by simp), ok_bind]
    rfl

/-- The points as the selection sees them. -/
def ptsOf (ps : List (Nat × Nat)) : List Pt := ps.map fun p => pt p.1 p.2

theorem read_points {hp h : Heap} {X : List Nat} (t : Track hp h X) {b : Buf Point2D} (hb : b.id ∈ X) {ps : List (Nat × Nat)}
    (hc : b.cells = ps.map (fun p => some ((p.1 : ℚ), (p.2 : ℚ)))) :
    HOk (use [b.id] (asInput b.cells)) h fun r h' => r.map (fun p => (⟨.fin p.1, .fin p.2⟩ : Pt)) = ptsOf ps ∧ h' = h := by
  have e : asInput b.cells = .ok (ps.map fun p => ((p.1 : ℚ), (p.2 : ℚ))) := by
    rw [hc, ← asInput_map_some, List.map_map]
    rfl
  refine (t.use (by simpa using hb) e).mono ?_
  rintro r h' ⟨rfl, rfl⟩
  refine ⟨?_, rfl⟩
  rw [List.map_map]
  rfl

/-- With four or more peaks, four of them are returned, in the order of the sorted array; the block of the points
stays live. -/
theorem selectCorners_ok (P : Plat) {at2 : Dbl → Dbl → Dbl} (ha : AtanRange at2) (asn : Dbl → Dbl) {hp h : Heap} {X : List Nat}
    (hf : ∀ i, hp.fails i = false) {ps : List (Nat × Nat)} (h4 : 4 ≤ ps.length) (hsz : ps.length * 24 ≤ P.szMax)
    (hg : ∀ p ∈ ps, p.1 ≤ 1048576 ∧ p.2 ≤ 1048576) {i : Nat} {b : Buf Point2D}
    (hc : b.cells = ps.map (fun p => some ((p.1 : ℚ), (p.2 : ℚ)))) (t : Track hp h (i :: b.id :: X)) {w hh ow oh : Nat}
    {sx sy : Dbl} (hsx : scaleOf w ow = .ok sx) (hsy : scaleOf hh oh = .ok sy) :
    HOk (selectCorners P at2 asn w hh ow oh ⟨i, some b, ps.length⟩) h fun k h' =>
      (∃ l q : List Pt, l.Perm (ptsOf ps) ∧ q.Sublist l ∧ q.length = 4 ∧ k = scaled q sx sy) ∧ Track hp h' (b.id :: X) := by
  have hl : (ptsOf ps).length = ps.length := by unfold ptsOf; rw [List.length_map]
  have e1 : P.sz (ps.length * 16) / 16 = ps.length := by rw [P.sz_eq' (by omega)]; omega
  have e2 : P.sz (ps.length * 8) / 8 = ps.length := by rw [P.sz_eq' (by omega)]; omega
  unfold selectCorners
  dsimp only
  rw [e1, e2]
  refine HOk.bind (read_points t (by simp) hc) ?_
  rintro pts h1 ⟨hpts, rfl⟩
  refine HOk.bind (t.malloc hf) ?_
  rintro r h2 ⟨j, rfl, t2⟩
  rw [hpts]
  have hs := sort_corners_permutes P ha (pts := ptsOf ps) (by omega) (by omega) (r := List.replicate ps.length none)
    (by simp [hl]) hsx hsy h2
  rw [hl] at hs
  refine HOk.bind hs ?_
  rintro res h3 ⟨⟨u1, u2, u3⟩, ⟨-, hoom⟩ | ⟨l, r', hl', h4', hst, rfl⟩⟩
  · exact absurd hoom (t2.not_oom hf)
  have t3 : Track hp h3 (j :: i :: b.id :: X) := ⟨by rw [u1]; exact t2.live, u2.trans t2.fails, t2.next.trans u3⟩
  have hll : l.length = ps.length := by rw [hl'.length_eq, hl]
  have hst' : r' = l.map some ++ [] := by
    unfold StartsWith at hst
    rw [hst, hll]
    simp
  subst hst'
  dsimp only
  refine HOk.bind (t3.use (ids := []) (by simp) hsx) ?_
  rintro _ _ ⟨hx', rfl⟩
  refine HOk.bind (t3.use (ids := []) (by simp) hsy) ?_
  rintro _ _ ⟨hy', rfl⟩
  rw [hx', hy']
  refine HOk.bind (P := fun k h' => (∃ q : List Pt, q.Sublist l ∧ q.length = 4 ∧ k = scaled q sx sy) ∧
    Track hp h' (j :: i :: b.id :: X)) ?_ ?_
  · split_ifs with h5
    · refine HOk.bind (t3.malloc hf) ?_
      rintro r h4 ⟨a, rfl, t4⟩
      dsimp only
      refine HOk.bind (t4.malloc hf) ?_
      rintro r h5 ⟨c, rfl, t5⟩
      dsimp only
      have grid : ∀ p ∈ l, GridPt p := by
        intro p hp
        obtain ⟨x, hx, rfl⟩ := List.mem_map.1 (hl'.mem_iff.1 hp)
        exact ⟨_, _, rfl, hg x hx⟩
      obtain ⟨as, L, hL, hfill⟩ := fillAngles_ok asn grid (by omega) []
      obtain ⟨q, q1, q2, q3⟩ := topFour_ok h4' [] hL sx sy
      rw [hll] at hfill q3
      refine HOk.bind (t5.use (v := scaled q sx sy) (by simp) (by rw [hfill, ok_bind]; exact q3)) ?_
      rintro _ _ ⟨rfl, rfl⟩
      refine HOk.bind (t5.free (i := a) (Y := c :: j :: i :: b.id :: X) (List.Perm.swap _ _ _)) ?_
      rintro _ h6 t6
      refine HOk.bind (t6.free (List.Perm.refl _)) ?_
      rintro _ h7 t7
      exact HOk.pure ⟨⟨q, q1, q2, rfl⟩, t7⟩
    · have h44 : ps.length = 4 := by omega
      rw [h44]
      refine (t3.use (v := scaled l sx sy) (by simp) (pick_ok h4' sx sy)).mono ?_
      rintro _ _ ⟨rfl, rfl⟩
      exact ⟨⟨l, List.Sublist.refl _, by omega, rfl⟩, t3⟩
  · rintro k h4 ⟨⟨q, q1, q2, rfl⟩, t4⟩
    refine HOk.bind (t4.free (List.Perm.refl _)) ?_
    rintro _ h5 t5
    refine HOk.bind (t5.free (List.Perm.refl _)) ?_
    rintro _ h6 t6
    exact HOk.pure ⟨⟨l, q, hl', q1, q2, rfl⟩, t6⟩

/-- With fewer than four peaks the selection is a fault. -/
theorem selectCorners_few (P : Plat) (at2 : Dbl → Dbl → Dbl) (asn : Dbl → Dbl) {h : Heap} (hf : ∀ i, h.fails i = false)
    {ps : List (Nat × Nat)} (h4 : ps.length < 4) {peaks : CornerPeaks} (hn : peaks.count = ps.length)
    (hc : ∀ b, peaks.points = some b → b.cells = ps.map (fun p => some ((p.1 : ℚ), (p.2 : ℚ))))
    (hc0 : peaks.points = none → ps = []) (w hh ow oh : Nat) :
    HErr (selectCorners P at2 asn w hh ow oh peaks) h := by
  apply HPart.err
  have e1 : P.sz (ps.length * 16) / 16 = ps.length := by
    have := sz96 P
    rw [P.sz_eq' (by omega)]
    omega
  unfold selectCorners
  rw [hn, e1]
  refine HPart.bind (P := fun pts h' => pts.length = ps.length ∧ h' = h) ?_ ?_
  · cases hp : peaks.points with
    | none =>
      refine HPart.pure ⟨?_, rfl⟩
      rw [hc0 hp]
      rfl
    | some b =>
      have e : asInput b.cells = .ok (ps.map fun p => ((p.1 : ℚ), (p.2 : ℚ))) := by
        rw [hc b hp, ← asInput_map_some, List.map_map]
        rfl
      refine (HPart.use (Q := fun r => r.length = ps.length) ?_).mono fun _ _ h => h
      rw [e]
      exact Part.pure (by simp)
  rintro pts _ ⟨hl, rfl⟩
  refine HPart.bind (HPart.malloc hf) ?_
  rintro _ h1 ⟨⟨j, rfl⟩, hf1⟩
  have rd0 : ∀ k, Part (rd (List.replicate ps.length none : Cells Pt) k) fun _ => False := by
    intro k v e
    have := part_rd v e
    rw [List.getElem?_replicate] at this
    split_ifs at this
    all_goals simp at this
  by_cases h3 : ps.length < 3
  · dsimp only [Option.map]
    have hs := sort_corners_few P at2 w hh ow oh (pts.map fun p => (⟨.fin p.1, .fin p.2⟩ : Pt)) h3
      (some (List.replicate ps.length none)) h1
    refine HPart.bind (P := fun r h' => r = (noCorners, some (List.replicate ps.length none))) ?_ ?_
    · intro a h' e
      rw [hs] at e
      cases e
      rfl
    rintro _ h2 rfl
    dsimp only
    refine HPart.seq fun sx h3' => HPart.seq fun sy h4' => ?_
    rw [if_neg (by omega)]
    refine HPart.bind (P := fun _ _ => False) ?_ (fun _ _ h => h.elim)
    refine (HPart.use (Q := fun _ => False) ?_).mono fun _ _ h => h.1
    refine Part.bind (Part.trivial _) fun _ _ => Part.bind (Part.trivial _) fun _ _ => Part.bind (Part.trivial _) fun _ _ => ?_
    unfold pickCorners
    exact Part.bind (rd0 0) fun _ h => h.elim
  · have hpl : ps.length = 3 := by omega
    rw [hpl] at hl
    obtain ⟨a, b, c, rfl⟩ : ∃ a b c, pts = [a, b, c] := by
      match pts, hl with
      | [a, b, c], _ => exact ⟨a, b, c, rfl⟩
    dsimp only [Option.map]
    rw [hpl]
    obtain ⟨e, he⟩ := sort_corners_three_overruns P at2 w hh ow oh (⟨.fin a.1, .fin a.2⟩ : Pt) ⟨.fin b.1, .fin b.2⟩ ⟨.fin c.1, .fin c.2⟩
      (r := List.replicate 3 none) (by simp) hf1
    refine HPart.bind (P := fun _ _ => False) ?_ (fun _ _ h => h.elim)
    intro v h' e'
    have e2 := he.symm.trans e'
    cases e2

end FlatCV.Props
