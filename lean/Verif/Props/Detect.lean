/-
C61, C103–C105: corner detection.
-/
import Verif.Lemmas.DetectRun
import Verif.Spec.Detect

namespace FlatCV.Props
open FlatCV FlatCV.Model FlatCV.Spec

/-! ### The search -/

/-- `lowerThreshold` on numbers. -/
def lowerQ (t : ℚ) : ℚ :=
  let t := Fmt.b64.rnd (t - dbl005)
  if t < dbl001 then dbl001 else t

/-- The thresholds of search `m`. -/
def thr : Nat → ℚ × ℚ
  | 0 => (dbl04, dbl02)
  | m + 1 => (lowerQ (thr m).1, lowerQ (thr m).2)

theorem thr_facts : (∀ m, m ≤ 7 → |(thr m).1| ≤ 1 ∧ |(thr m).2| ≤ 1 ∧ |(thr m).1 - (2 / 5 - m / 20)| ≤ 1 / 10 ^ 15 ∧
      |(thr m).2 - max (1 / 5 - (m : ℚ) / 20) (1 / 100)| ≤ 1 / 10 ^ 15) ∧
    (∀ m, m < 7 → dbl001 < (thr (m + 1)).1) ∧ thr 8 = (dbl001, dbl001) := by
  refine ⟨?_, ?_, ?_⟩ <;> decide +kernel

theorem thr_ok {m : Nat} (hm : m ≤ 7) : Thresholds m (thr m).1 (thr m).2 := (thr_facts.1 m hm).2.2

theorem lower_eq {t : ℚ} (ht : |t| ≤ 1) : lowerThreshold (.fin t) = .fin (lowerQ t) := by
  have e : dsub (.fin t) (.fin dbl005) = .fin (Fmt.b64.rnd (t - dbl005)) := by
    have := lift64 (x := t + -dbl005) (k := 1) (by norm_num) (by
      have h1 : |t + -dbl005| ≤ |t| + |-dbl005| := abs_add_le _ _
      have h2 : |-dbl005| ≤ 1 := by unfold dbl005; norm_num [abs_of_nonneg, abs_of_nonpos]
      norm_num
      linarith)
    rw [sub_eq_add_neg]
    exact this
  unfold lowerThreshold
  rw [e]
  unfold lowerQ
  dsimp only
  by_cases h : Fmt.b64.rnd (t - dbl005) < dbl001
  · rw [if_pos h, if_pos (by simpa [Dbl.lt] using h)]
  · rw [if_neg h, if_neg (by simpa [Dbl.lt] using h)]

/-- What a finished search leaves. -/
structure Found (hp h' : Heap) (X : List Nat) (r : Option CornerPeaks) (ps : List (Nat × Nat)) : Prop where
  some_of : ∃ pk, r = some pk ∧ pk.count = ps.length ∧
    ((pk.points = none ∧ ps = [] ∧ Track hp h' (pk.id :: X)) ∨
      ∃ b, pk.points = some b ∧ b.cells = ps.map (fun p => some ((p.1 : ℚ), (p.2 : ℚ))) ∧ Track hp h' (pk.id :: b.id :: X))

theorem peaks_call {hp h : Heap} {X : List Nat} (hf : ∀ i, hp.fails i = false) (t : Track hp h X) {m : HM (Option CornerPeaks)}
    {Q : List (Nat × Nat) → Prop} (hm : PeaksReturn m Q) : HOk m h fun r h' => ∃ ps, Q ps ∧ Found hp h' X r ps := by
  refine (hm h).mono ?_
  rintro r h' hr
  cases r with
  | none => exact absurd hr (t.not_oom hf)
  | some pk =>
    obtain ⟨h1, h2, ps, hQ, hc, hr⟩ := hr
    refine ⟨ps, hQ, ⟨pk, rfl, hc, ?_⟩⟩
    cases hpt : pk.points with
    | none =>
      rw [hpt] at hr
      refine Or.inl ⟨rfl, hr.1, ?_, h1.trans t.fails, t.next.trans h2⟩
      rw [hr.2]
      exact t.live.cons _
    | some b =>
      rw [hpt] at hr
      refine Or.inr ⟨b, rfl, hr.2.1, ?_, h1.trans t.fails, t.next.trans h2⟩
      rw [hr.2.2.1]
      exact (t.live.cons _).cons _

/-- The search starts with search `m` and ends with the first one that finds four peaks, at the latest with number 7. -/
theorem search_ok (P : Plat) {hp : Heap} (hf : ∀ i, hp.fails i = false) {ow oh : Nat} (wk : Work ow oh) {d : List UInt8}
    (hd : d.length = ow * oh * 2) {X : List Nat} : ∀ (fuel m : Nat), m ≤ 7 → 8 ≤ fuel + m → ∀ h, Track hp h X →
    HOk (searchPeaks P ow oh d fuel (.fin (thr m).1) (.fin (thr m).2)) h fun r h' => ∃ n ps, m ≤ n ∧ n ≤ 7 ∧
      PeakSet ow oh d (thr n).1 (thr n).2 ps ∧ Found hp h' X r ps ∧ (ps.length < 4 → n = 7) ∧
      ∀ k, m ≤ k → k < n → ∃ qs, PeakSet ow oh d (thr k).1 (thr k).2 qs ∧ qs.length < 4 := by
  intro fuel
  induction fuel with
  | zero => intro m h1 h2; omega
  | succ fuel ih =>
    intro m hm7 hfm h t
    have hsz := szMax_ge P
    have harea := wk.area
    have hcall := corner_peaks_correct (wk.img P (by omega) hd) (by omega) (by omega) (m := 16) (by decide) (thr m).1 (thr m).2
    unfold searchPeaks
    refine HOk.bind (peaks_call hf t hcall) ?_
    rintro r h1 ⟨ps, hQ, ⟨pk, rfl, hc, hpk⟩⟩
    dsimp only
    by_cases h4 : pk.count < 4
    · rw [if_pos h4]
      obtain ⟨f1, f2, -, -⟩ := thr_facts.1 m hm7
      rw [lower_eq f1, lower_eq f2]
      by_cases h7 : m < 7
      · have hlt : dbl001 < lowerQ (thr m).1 := thr_facts.2.1 m h7
        rw [if_pos (by
          rw [Bool.or_eq_true]
          left
          simpa [Dbl.lt] using hlt)]
        refine HOk.bind (P := fun _ h' => Track hp h' (pk.id :: X)) ?_ ?_
        · rcases hpk with ⟨e, -, t1⟩ | ⟨b, e, -, t1⟩
          · rw [e]
            exact HOk.pure t1
          · rw [e]
            exact t1.free (List.Perm.swap _ _ _)
        rintro _ h2 t2
        refine HOk.bind (t2.free (List.Perm.refl _)) ?_
        rintro _ h3 t3
        refine (ih (m + 1) (by omega) (by omega) h3 t3).mono ?_
        rintro r h' ⟨n, qs, n1, n2, n3, n4, n5, n6⟩
        refine ⟨n, qs, by omega, n2, n3, n4, n5, ?_⟩
        intro k hk1 hk2
        by_cases hkm : k = m
        · subst hkm
          exact ⟨ps, hQ, by omega⟩
        · exact n6 k (by omega) hk2
      · have e7 : m = 7 := by omega
        subst e7
        have e8 : (lowerQ (thr 7).1, lowerQ (thr 7).2) = (dbl001, dbl001) := thr_facts.2.2
        rw [Prod.mk.injEq] at e8
        rw [e8.1, e8.2, if_neg (by simp [Dbl.lt])]
        exact HOk.pure ⟨7, ps, le_refl _, le_refl _, hQ, ⟨pk, rfl, hc, hpk⟩, fun _ => rfl, fun k h1 h2 => by omega⟩
    · rw [if_neg h4]
      exact HOk.pure ⟨m, ps, le_refl _, hm7, hQ, ⟨pk, rfl, hc, hpk⟩, fun h => by omega, fun k h1 h2 => by omega⟩

theorem copyChannel_ok {hp h : Heap} {X : List Nat} (hf : ∀ i, hp.fails i = false) {ow oh i : Nat} (wk : Work ow oh) {d : List UInt8}
    (hd : d.length = ow * oh * 2) (t : Track hp h (i :: X)) :
    HOk (copyChannel ow oh ⟨i, d.map some⟩) h fun _ h' => Track hp h' (i :: X) := by
  have harea := wk.area
  unfold copyChannel
  rw [u32_eq (n := ow * oh) (by omega)]
  refine HOk.bind (t.malloc hf) ?_
  rintro _ h1 ⟨j, rfl, t1⟩
  dsimp only
  obtain ⟨v, hv⟩ : ∃ v, (forN (ow * oh) (List.replicate (ow * oh) none : Cells UInt8) fun i c => do
      let v ← rd (d.map some) (u32 (i * 2))
      wr c i v) = .ok v := by
    obtain ⟨v, hv, -⟩ := forN_ok (n := ow * oh) (s := (List.replicate (ow * oh) none : Cells UInt8)) (body := fun i c => do
      let v ← rd (d.map some) (u32 (i * 2))
      wr c i v) (fun _ s => s.length = ow * oh) (by simp) (by
        intro i hi s hs
        rw [u32_eq (n := i * 2) (by omega), rd_ok (v := d[i * 2]'(by omega)) (by
          rw [List.getElem?_map, List.getElem?_eq_getElem (show i * 2 < d.length by omega)]
          rfl), ok_bind,
          wr_ok (by omega)]
        exact Ok.pure' (by simpa using hs))
    exact ⟨v, hv⟩
  refine HOk.bind (t1.use (by simp) hv) ?_
  rintro _ _ ⟨rfl, rfl⟩
  exact t1.free (List.Perm.refl _)

/-! ### Scaling back -/

theorem scale_back {w ow : Nat} (hw : 0 < w) (hw' : w < 2147483648) (h1 : 255 ≤ ow) (h2 : ow ≤ 256) :
    scaleOf w ow = .ok (.fin (Fmt.b64.rnd (w / ow))) ∧ ∀ x : Nat, 0 < x → x + 1 < ow →
      dmul (.fin (x : ℚ)) (.fin (Fmt.b64.rnd (w / ow))) = .fin (Fmt.b64.rnd (x * Fmt.b64.rnd (w / ow))) ∧
      0 < Fmt.b64.rnd (x * Fmt.b64.rnd (w / ow)) ∧ Fmt.b64.rnd (x * Fmt.b64.rnd (w / ow)) < w := by
  have w1 : (1 : ℚ) ≤ w := by exact_mod_cast hw
  have w2 : (w : ℚ) ≤ 2147483648 := by exact_mod_cast hw'.le
  have o1 : (255 : ℚ) ≤ ow := by exact_mod_cast h1
  have o2 : (ow : ℚ) ≤ 256 := by exact_mod_cast h2
  have o0 : (ow : ℚ) ≠ 0 := by linarith
  have hq0 : (0 : ℚ) < w / ow := by positivity
  have hq1 : (w : ℚ) / ow ≤ w := div_le_self (by linarith) (by linarith)
  have hq2 : (1 : ℚ) / 256 ≤ w / ow := by
    rw [div_le_div_iff₀ (by norm_num) (by linarith)]
    linarith
  have e0 : (ow : ℚ) * (w / ow) = w := by field_simp
  have tiny : ∀ {q : ℚ}, 1 / 1024 ≤ q → |Fmt.b64.rnd q - q| ≤ q / 2 ^ 20 := by
    intro q hq
    have hq' : 0 < q := lt_of_lt_of_le (by norm_num) hq
    refine (rnd64_err q).trans ?_
    rw [abs_of_pos hq']
    have h1 : q / 2 ^ 53 ≤ q / 2 ^ 21 := div_le_div_of_nonneg_left hq'.le (by positivity) (by norm_num)
    have h2 : (1 : ℚ) / 2 ^ 1075 ≤ q / 2 ^ 21 := by
      have : (1 : ℚ) / 2 ^ 1075 ≤ (1 / 1024) / 2 ^ 21 := by
        rw [div_div, div_le_div_iff₀ (by positivity) (by positivity), one_mul, one_mul]
        have e : (1024 : ℚ) * 2 ^ 21 = 2 ^ 31 := by norm_num
        rw [e]
        exact pow_le_pow_right₀ (by norm_num) (by norm_num)
      refine this.trans ?_
      gcongr
    have e : q / 2 ^ 20 = q / 2 ^ 21 + q / 2 ^ 21 := by ring
    rw [e]
    linarith
  refine ⟨?_, ?_⟩
  · unfold scaleOf
    rw [show Dbl.div Fmt.b64 (.fin (w : ℚ)) (.fin (ow : ℚ)) = .ok (Fmt.b64.lift ((w : ℚ) / ow)) from if_neg o0]
    rw [lift64 (k := 31) (by norm_num) (by rw [abs_of_pos hq0]; norm_num; linarith)]
  · intro x hx0 hx1
    have x1 : (1 : ℚ) ≤ x := by exact_mod_cast hx0
    have x2 : (x : ℚ) ≤ ow - 2 := by
      have : x + 2 ≤ ow := by omega
      have : ((x + 2 : ℕ) : ℚ) ≤ ow := by exact_mod_cast this
      push_cast at this
      linarith
    have hs := tiny (q := (w : ℚ) / ow) (by linarith)
    generalize hS : Fmt.b64.rnd ((w : ℚ) / ow) = s at *
    rw [abs_le] at hs
    have s1 : (1 : ℚ) / 512 ≤ s := by
      have : (w : ℚ) / ow / 2 ^ 20 ≤ (w / ow) / 2 := div_le_div_of_nonneg_left hq0.le (by norm_num) (by norm_num)
      linarith
    have s2 : s ≤ (w / ow) * (1 + 1 / 2 ^ 20) := by linarith
    have p1 : (1 : ℚ) / 512 ≤ x * s := by nlinarith
    have p2 : (x : ℚ) * s ≤ w * (1 - 2 / 256) * (1 + 1 / 2 ^ 20) := by
      have a : (x : ℚ) * s ≤ (ow - 2) * ((w / ow) * (1 + 1 / 2 ^ 20)) :=
        mul_le_mul x2 s2 (by linarith) (by linarith)
      have b : ((ow : ℚ) - 2) * (w / ow) = w - 2 * (w / ow) := by rw [sub_mul, e0]
      have c : (w : ℚ) / 256 ≤ w / ow := div_le_div_of_nonneg_left (by linarith) (by linarith) o2
      have e : ((ow : ℚ) - 2) * ((w / ow) * (1 + 1 / 2 ^ 20)) = (w - 2 * (w / ow)) * (1 + 1 / 2 ^ 20) := by
        rw [← mul_assoc, b]
      rw [e] at a
      refine a.trans ?_
      have : (w : ℚ) - 2 * (w / ow) ≤ w * (1 - 2 / 256) := by linarith
      exact mul_le_mul_of_nonneg_right this (by norm_num)
    have hr := tiny (q := (x : ℚ) * s) (by linarith)
    rw [abs_le] at hr
    have d1 : (x : ℚ) * s / 2 ^ 20 ≤ (x * s) / 2 := div_le_div_of_nonneg_left (by linarith) (by norm_num) (by norm_num)
    refine ⟨?_, by linarith, ?_⟩
    · refine lift64 (k := 32) (by norm_num) ?_
      rw [abs_of_nonneg (by linarith)]
      norm_num at p2 ⊢
      linarith
    · have : Fmt.b64.rnd ((x : ℚ) * s) ≤ (x * s) * (1 + 1 / 2 ^ 20) := by linarith
      have h3 : ((x : ℚ) * s) * (1 + 1 / 2 ^ 20) ≤ (w * (1 - 2 / 256) * (1 + 1 / 2 ^ 20)) * (1 + 1 / 2 ^ 20) :=
        mul_le_mul_of_nonneg_right p2 (by norm_num)
      have h4 : ((w : ℚ) * (1 - 2 / 256) * (1 + 1 / 2 ^ 20)) * (1 + 1 / 2 ^ 20) < w := by
        have : (w : ℚ) * (1 - 2 / 256) * (1 + 1 / 2 ^ 20) * (1 + 1 / 2 ^ 20) = w * ((1 - 2 / 256) * (1 + 1 / 2 ^ 20) * (1 + 1 / 2 ^ 20)) := by
          ring
        rw [this]
        have : ((1 : ℚ) - 2 / 256) * (1 + 1 / 2 ^ 20) * (1 + 1 / 2 ^ 20) < 1 := by norm_num
        nlinarith
      linarith

theorem inside_of {w h ow oh : Nat} (hw : 0 < w) (hw' : w < 2147483648) (hh : 0 < h) (hh' : h < 2147483648) (wk : Work ow oh)
    {d : List UInt8} {acc rou : ℚ} {p : Nat × Nat} (hp : Qualified ow oh d acc rou p) :
    ScaledPeak w h ow oh p (dmul (.fin (p.1 : ℚ)) (.fin (Fmt.b64.rnd (w / ow)))) (dmul (.fin (p.2 : ℚ)) (.fin (Fmt.b64.rnd (h / oh)))) ∧
      StrictlyInside w h (dmul (.fin (p.1 : ℚ)) (.fin (Fmt.b64.rnd (w / ow)))) (dmul (.fin (p.2 : ℚ)) (.fin (Fmt.b64.rnd (h / oh)))) := by
  obtain ⟨-, hx⟩ := scale_back hw hw' wk.w1 wk.w2
  obtain ⟨-, hy⟩ := scale_back hh hh' wk.h1 wk.h2
  obtain ⟨a1, a2, a3⟩ := hx p.1 hp.left hp.right
  obtain ⟨b1, b2, b3⟩ := hy p.2 hp.top hp.bottom
  exact ⟨⟨a1, b1⟩, _, _, a1, b1, a2, a3, b2, b3⟩

/-- Four of the points, scaled. -/
theorem scaled_corners {w h ow oh : Nat} (hw : 0 < w) (hw' : w < 2147483648) (hh : 0 < h) (hh' : h < 2147483648) (wk : Work ow oh)
    {d : List UInt8} {acc rou : ℚ} {ps : List (Nat × Nat)} (hps : ∀ p ∈ ps, Qualified ow oh d acc rou p) {l q : List Pt}
    (hl : l.Perm (ptsOf ps)) (hq : q.Sublist l) (h4 : q.length = 4) :
    CornersInside w h (scaled q (.fin (Fmt.b64.rnd (w / ow))) (.fin (Fmt.b64.rnd (h / oh)))) ∧
      FourOf w h ow oh ps (scaled q (.fin (Fmt.b64.rnd (w / ow))) (.fin (Fmt.b64.rnd (h / oh)))) := by
  have hsub : q.Subperm (ptsOf ps) := hq.subperm.trans hl.subperm
  obtain ⟨q', hq', hs⟩ := hsub
  unfold ptsOf at hs
  obtain ⟨r, hr, rfl⟩ := List.sublist_map_iff.1 hs
  obtain ⟨r', hr', e⟩ : ∃ r' : List (Nat × Nat), r'.Perm r ∧ q = r'.map fun p => pt p.1 p.2 := by
    have hinj : Function.Injective fun p : Nat × Nat => pt p.1 p.2 := by
      rintro ⟨a, b⟩ ⟨c, d⟩ h
      obtain ⟨rfl, rfl⟩ := pt_inj.1 h
      rfl
    have hinv := Function.leftInverse_invFun hinj
    have hq2 := hq'.symm
    refine ⟨q.map (Function.invFun fun p : Nat × Nat => pt p.1 p.2), ?_, ?_⟩
    · have := hq2.map (Function.invFun fun p : Nat × Nat => pt p.1 p.2)
      rw [List.map_map, hinv.id, List.map_id] at this
      exact this
    · rw [List.map_map]
      refine (List.map_id q).symm.trans (List.map_congr_left fun x hx => ?_)
      obtain ⟨y, -, rfl⟩ := List.mem_map.1 (hq2.mem_iff.1 hx)
      show pt y.1 y.2 = _
      rw [Function.comp, hinv y]
  subst e
  rw [List.length_map] at h4
  obtain ⟨a, b, c, e, rfl⟩ : ∃ a b c e, r' = [a, b, c, e] := by
    match r', h4 with
    | [a, b, c, e], _ => exact ⟨a, b, c, e, rfl⟩
  have hsub' : [a, b, c, e].Subperm ps := hr'.subperm.trans hr.subperm
  have hin : ∀ p ∈ [a, b, c, e], Qualified ow oh d acc rou p := fun p hp => hps p (hsub'.subset hp)
  have ia := inside_of hw hw' hh hh' wk (hin a (by simp))
  have ib := inside_of hw hw' hh hh' wk (hin b (by simp))
  have ic := inside_of hw hw' hh hh' wk (hin c (by simp))
  have ie := inside_of hw hw' hh hh' wk (hin e (by simp))
  exact ⟨⟨ia.2, ib.2, ic.2, ie.2⟩, a, b, c, e, hsub', ia.1, ib.1, ic.1, ie.1⟩

theorem peaks_bound {w h : Nat} {d : List UInt8} {acc rou : ℚ} {ps : List (Nat × Nat)} (hq : AllQualified w h d acc rou ps) :
    ps.length ≤ w * h := by
  have nd : ps.Nodup := hq.2.imp fun {a b} hab => by
    rintro rfl
    unfold Before at hab
    omega
  have := (List.subperm_of_subset nd (l₂ := List.range w ×ˢ List.range h) fun p hp => by
    have h1 := (hq.1 p hp).right
    have h2 := (hq.1 p hp).bottom
    exact List.mem_product.2 ⟨List.mem_range.2 (by omega), List.mem_range.2 (by omega)⟩).length_le
  rwa [List.length_product, List.length_range, List.length_range] at this

/-! ### The whole function -/

/-- How a run ends that does not exit: `m` searches found fewer than four peaks; the last one found `ps`.  With four or more, four of
them are returned and two blocks stay allocated; with fewer, the behaviour is undefined. -/
structure Ends (run : HM (Corners Dbl)) (hp : Heap) (w h ow oh : Nat) (resp : List UInt8) (m : Nat) (acc rou : ℚ)
    (ps : List (Nat × Nat)) : Prop where
  size : (ow = 255 ∨ ow = 256) ∧ (oh = 255 ∨ oh = 256)
  len : resp.length = ow * oh * 2
  last : m ≤ 7 ∧ Thresholds m acc rou ∧ PeakSet ow oh resp acc rou ps
  before : ∀ k, k < m → ∃ acc' rou' qs, Thresholds k acc' rou' ∧ PeakSet ow oh resp acc' rou' qs ∧ qs.length < 4
  few : ps.length < 4 → m = 7 ∧ HErr run hp
  enough : 4 ≤ ps.length → HOk run hp fun k h' => CornersInside w h k ∧ FourOf w h ow oh ps k ∧
    ∃ i j, h'.live.Perm (i :: j :: hp.live)

/-- Every run with enough memory: the program exits or ends as described. -/
theorem detect_corners_runs (P : Plat) {ex : ℚ → ℚ} (hex : ExpOk ex) {at2 : Dbl → Dbl → Dbl} (ha : AtanRange at2) (asn : Dbl → Dbl)
    {hp : Heap} (hf : ∀ i, hp.fails i = false) {w h : Nat} {d : List UInt8} (im : Img P w h 4 d) (h32 : w * h * 4 < 4294967296) :
    fcv_detect_corners P ex at2 asn (some d) w h hp = .error (.comp .exit) ∨
      ∃ ow oh resp m acc rou ps, Ends (fcv_detect_corners P ex at2 asn (some d) w h) hp w h ow oh resp m acc rou ps := by
  have hw := im.w_pos
  have hh := im.h_pos
  have hw1 : w ≤ w * h := Nat.le_mul_of_pos_right w hh
  have hh1 : h ≤ w * h := Nat.le_mul_of_pos_left h hw
  have hrun : fcv_detect_corners P ex at2 asn (some d) w h = (do
      match ← cornerResponse P ex w h d with
      | none => pure (defaultCorners w h)
      | some (response, ow, oh) => do
        copyChannel ow oh response
        let rd ← use [response.id] (asInput response.cells)
        let peaks ← searchPeaks P ow oh rd searchFuel (.fin dbl04) (.fin dbl02)
        free response.id
        match peaks with
        | none => hfault .exit
        | some peaks => selectCorners P at2 asn w h ow oh peaks) := by
    unfold fcv_detect_corners
    dsimp only
    rw [if_neg (by omega)]
    rfl
  rw [hrun]
  rcases cornerResponse_ok P hex hf im h32 with ⟨r, h1, e1, j, k, ow, oh, resp, rfl, wk, hl, t1⟩ | e1
  swap
  · left
    rw [hm_bind, e1]
  right
  obtain ⟨_, h2, e2, t2⟩ := copyChannel_ok hf wk hl t1
  obtain ⟨rd', h3, e3, rfl, rfl⟩ := t2.use (ids := [j]) (by simp) (asInput_map_some resp)
  obtain ⟨pk', h4, e4, m, ps, -, m7, hps, ⟨pk, rfl, hc, hpk⟩, hlast, hbefore⟩ := search_ok P hf wk hl searchFuel 0 (by omega)
    (by unfold searchFuel; omega) h3 t2
  have ⟨w1, w2, o1, o2⟩ := wk
  obtain ⟨h5, e5, t5⟩ : ∃ h5, free j h4 = .ok ((), h5) ∧ ((pk.points = none ∧ ps = [] ∧ Track hp h5 [pk.id, k]) ∨
      ∃ b, pk.points = some b ∧ b.cells = ps.map (fun p => some ((p.1 : ℚ), (p.2 : ℚ))) ∧ Track hp h5 [pk.id, b.id, k]) := by
    rcases hpk with ⟨p1, p2, t4⟩ | ⟨b, p1, p2, t4⟩
    · obtain ⟨_, h5, e5, t5⟩ := t4.free (i := j) (Y := [pk.id, k]) (List.Perm.swap _ _ _)
      exact ⟨h5, e5, Or.inl ⟨p1, p2, t5⟩⟩
    · obtain ⟨_, h5, e5, t5⟩ := t4.free (i := j) (Y := [pk.id, b.id, k])
        (((List.Perm.swap _ _ _).cons _).trans (List.Perm.swap _ _ _))
      exact ⟨h5, e5, Or.inr ⟨b, p1, p2, t5⟩⟩
  have e4' : searchPeaks P ow oh rd' searchFuel (.fin dbl04) (.fin dbl02) h3 = .ok (some pk, h4) := e4
  have hall : ∀ run, run = (do
      match ← cornerResponse P ex w h d with
      | none => pure (defaultCorners w h)
      | some (response, ow, oh) => do
        copyChannel ow oh response
        let rd ← use [response.id] (asInput response.cells)
        let peaks ← searchPeaks P ow oh rd searchFuel (.fin dbl04) (.fin dbl02)
        free response.id
        match peaks with
        | none => hfault .exit
        | some peaks => selectCorners P at2 asn w h ow oh peaks) → run hp = selectCorners P at2 asn w h ow oh pk h5 := by
    rintro _ rfl
    rw [hm_step e1]
    dsimp only
    rw [hm_step e2, hm_step e3, hm_step e4', hm_step e5]
  have hall := hall _ rfl
  refine ⟨ow, oh, rd', m, (thr m).1, (thr m).2, ps, ⟨by omega, by omega⟩, hl, ⟨m7, thr_ok m7, hps⟩, ?_, ?_, ?_⟩
  · intro k hk
    obtain ⟨qs, q1, q2⟩ := hbefore k (by omega) hk
    exact ⟨_, _, qs, thr_ok (by omega), q1, q2⟩
  · intro h4
    refine ⟨hlast h4, ?_⟩
    unfold HErr
    rw [hall]
    refine selectCorners_few P at2 asn ?_ h4 hc ?_ ?_ w h ow oh
    · intro i
      rcases t5 with ⟨-, -, t5⟩ | ⟨b, -, -, t5⟩ <;> rw [t5.fails, hf]
    · intro b hb
      rcases t5 with ⟨p1, -, -⟩ | ⟨b', p1, p2, -⟩
      · rw [p1] at hb; cases hb
      · rw [p1] at hb; cases hb; exact p2
    · intro hb
      rcases t5 with ⟨-, p2, -⟩ | ⟨b', p1, -, -⟩
      · exact p2
      · rw [p1] at hb; cases hb
  · intro h4
    rcases t5 with ⟨-, p2, -⟩ | ⟨b, p1, p2, t5⟩
    · rw [p2] at h4; simp at h4
    obtain ⟨pid, ppts, pcount⟩ := pk
    dsimp only at p1 hc t5
    subst p1 hc
    obtain ⟨sx, -⟩ := scale_back (w := w) hw (by omega) w1 w2
    obtain ⟨sy, -⟩ := scale_back (w := h) hh (by omega) o1 o2
    have hq : ∀ p ∈ ps, Qualified ow oh rd' (thr m).1 (thr m).2 p := hps.1.1
    have hcount : ps.length * 24 ≤ P.szMax := by
      have := peaks_bound hps.1
      have := wk.area
      have := szMax_ge P
      omega
    have hsel := selectCorners_ok P ha asn hf h4 hcount (fun p hp => by
      have := (hq p hp).right
      have := (hq p hp).bottom
      omega) p2 t5 sx sy
    unfold HOk
    rw [hall]
    refine HOk.mono hsel ?_
    rintro kk h' ⟨⟨l, q, q1, q2, q3, rfl⟩, t6⟩
    obtain ⟨c1, c2⟩ := scaled_corners hw (by omega) hh (by omega) wk hq q1 q2 q3
    exact ⟨c1, c2, b.id, k, t6.live⟩

/-! ### C61 -/

/-- C61 for four or more peaks (points with integer coordinates, as the peak search returns them): the selection step is
free of faults and returns four of the peaks. -/
theorem select_corners_safe_partial (P : Plat) {at2 : Dbl → Dbl → Dbl} (ha : AtanRange at2) (asn : Dbl → Dbl) {hp : Heap}
    (hf : ∀ i, hp.fails i = false) {ps : List (Nat × Nat)} (h4 : 4 ≤ ps.length) (hsz : ps.length * 24 ≤ P.szMax)
    (hg : ∀ p ∈ ps, p.1 ≤ 1048576 ∧ p.2 ≤ 1048576) {i j : Nat} (hl : hp.live = i :: j :: []) {w h ow oh : Nat} {sx sy : Dbl}
    (hsx : scaleOf w ow = .ok sx) (hsy : scaleOf h oh = .ok sy) :
    HOk (selectCorners P at2 asn w h ow oh ⟨i, some ⟨j, ps.map fun p => some ((p.1 : ℚ), (p.2 : ℚ))⟩, ps.length⟩) hp fun k _ =>
      ∃ q : List Pt, q.Subperm (ptsOf ps) ∧ q.length = 4 ∧ k = scaled q sx sy := by
  have t : Track { hp with live := [] } hp (i :: j :: []) := ⟨by rw [hl]; simp, rfl, le_refl _⟩
  refine (selectCorners_ok P ha asn (hp := { hp with live := [] }) hf h4 hsz hg (b := ⟨j, ps.map fun p => some ((p.1 : ℚ), (p.2 : ℚ))⟩)
    rfl t hsx hsy).mono ?_
  rintro k h' ⟨⟨l, q, h1, h2, h3, h5⟩, -⟩
  exact ⟨q, h2.subperm.trans h1.subperm, h3, h5⟩

/-- The result of the selection for given peaks. -/
def selectRun (ps : List (Nat × Nat)) : Option (List Dbl) :=
  okVal ((selectCorners Plat.lp64 diagonal id 512 512 256 256
    ⟨0, some ⟨1, ps.map fun p => some ((p.1 : ℚ), (p.2 : ℚ))⟩, ps.length⟩ ⟨2, [0, 1], fun _ => false⟩).map fun r =>
      [r.1.tl_x, r.1.tl_y, r.1.tr_x, r.1.tr_y, r.1.br_x, r.1.br_y, r.1.bl_x, r.1.bl_y])

/-- Four peaks, and five peaks of which four are selected (with a simplified `atan2` and `asin`). -/
example : selectRun [(20, 20), (200, 20), (20, 200), (200, 200)] =
    some [.fin 40, .fin 40, .fin 400, .fin 40, .fin 400, .fin 400, .fin 40, .fin 400] ∧
  selectRun [(20, 20), (100, 28), (200, 20), (20, 200), (200, 200)] =
    some [.fin 200, .fin 56, .fin 400, .fin 40, .fin 400, .fin 400, .fin 40, .fin 400] := by decide +kernel

/-- C61 is false: whenever fewer than four peaks have been found, and memory is available, the selection step accesses memory
outside its arrays or reads entries that were never written. -/
theorem select_corners_few (P : Plat) (at2 : Dbl → Dbl → Dbl) (asn : Dbl → Dbl) {hp : Heap} (hf : ∀ i, hp.fails i = false)
    {ps : List (Nat × Nat)} (h4 : ps.length < 4) (w h ow oh i j : Nat) :
    HErr (selectCorners P at2 asn w h ow oh ⟨i, some ⟨j, ps.map fun p => some ((p.1 : ℚ), (p.2 : ℚ))⟩, ps.length⟩) hp :=
  selectCorners_few P at2 asn hf h4 rfl (by rintro b h; cases h; rfl) (by intro h; cases h) w h ow oh

/-- The same when no peak has been found, where the search returns no array. -/
theorem select_corners_none (P : Plat) (at2 : Dbl → Dbl → Dbl) (asn : Dbl → Dbl) {hp : Heap} (hf : ∀ i, hp.fails i = false)
    (w h ow oh i : Nat) : HErr (selectCorners P at2 asn w h ow oh ⟨i, none, 0⟩) hp :=
  selectCorners_few P at2 asn (ps := []) hf (by simp) rfl (by rintro b h; cases h) (fun _ => rfl) w h ow oh

/-! ### C103–C105 -/

theorem ends_of_ok (P : Plat) {ex : ℚ → ℚ} (hex : ExpOk ex) {at2 : Dbl → Dbl → Dbl} (ha : AtanRange at2) (asn : Dbl → Dbl)
    {hp : Heap} (hf : ∀ i, hp.fails i = false) {w h : Nat} {d : List UInt8} (im : Img P w h 4 d) (h32 : w * h * 4 < 4294967296)
    {k : Corners Dbl} {h' : Heap} (hr : fcv_detect_corners P ex at2 asn (some d) w h hp = .ok (k, h')) :
    CornersInside w h k ∧ (∃ ow oh resp m acc rou ps, (ow = 255 ∨ ow = 256) ∧ (oh = 255 ∨ oh = 256) ∧ m ≤ 7 ∧
      Thresholds m acc rou ∧ PeakSet ow oh resp acc rou ps ∧ FourOf w h ow oh ps k) ∧ ∃ i j, h'.live.Perm (i :: j :: hp.live) := by
  rcases detect_corners_runs P hex ha asn hf im h32 with e | ⟨ow, oh, resp, m, acc, rou, ps, E⟩
  · rw [hr] at e
    cases e
  · by_cases h4 : ps.length < 4
    · obtain ⟨-, e, he⟩ := E.few h4
      rw [hr] at he
      cases he
    · obtain ⟨k', h'', e, h1, h2, h3⟩ := E.enough (by omega)
      rw [hr] at e
      cases e
      exact ⟨h1, ⟨ow, oh, resp, m, acc, rou, ps, E.size.1, E.size.2, E.last.1, E.last.2.1, E.last.2.2, h2⟩, h3⟩

/-- C103: the corners returned lie strictly inside the image. -/
theorem detect_corners_inside (P : Plat) {ex : ℚ → ℚ} (hex : ExpOk ex) {at2 : Dbl → Dbl → Dbl} (ha : AtanRange at2) (asn : Dbl → Dbl)
    {hp : Heap} (hf : ∀ i, hp.fails i = false) {w h : Nat} {d : List UInt8} (im : Img P w h 4 d) (h32 : w * h * 4 < 4294967296)
    {k : Corners Dbl} {h' : Heap} (hr : fcv_detect_corners P ex at2 asn (some d) w h hp = .ok (k, h')) : CornersInside w h k :=
  (ends_of_ok P hex ha asn hf im h32 hr).1

/-- C103: they are four different peaks of the corner response, at least 16 apart on the working image. -/
theorem detect_corners_are_peaks (P : Plat) {ex : ℚ → ℚ} (hex : ExpOk ex) {at2 : Dbl → Dbl → Dbl} (ha : AtanRange at2)
    (asn : Dbl → Dbl) {hp : Heap} (hf : ∀ i, hp.fails i = false) {w h : Nat} {d : List UInt8} (im : Img P w h 4 d)
    (h32 : w * h * 4 < 4294967296) {k : Corners Dbl} {h' : Heap}
    (hr : fcv_detect_corners P ex at2 asn (some d) w h hp = .ok (k, h')) :
    ∃ ow oh resp m acc rou ps, (ow = 255 ∨ ow = 256) ∧ (oh = 255 ∨ oh = 256) ∧ m ≤ 7 ∧
      Thresholds m acc rou ∧ PeakSet ow oh resp acc rou ps ∧ FourOf w h ow oh ps k :=
  (ends_of_ok P hex ha asn hf im h32 hr).2.1

/-- C104 is false of every call that returns: two blocks stay allocated. -/
theorem detect_corners_leaks (P : Plat) {ex : ℚ → ℚ} (hex : ExpOk ex) {at2 : Dbl → Dbl → Dbl} (ha : AtanRange at2) (asn : Dbl → Dbl)
    {hp : Heap} (hf : ∀ i, hp.fails i = false) {w h : Nat} {d : List UInt8} (im : Img P w h 4 d) (h32 : w * h * 4 < 4294967296)
    {k : Corners Dbl} {h' : Heap} (hr : fcv_detect_corners P ex at2 asn (some d) w h hp = .ok (k, h')) :
    ∃ i j, h'.live.Perm (i :: j :: hp.live) :=
  (ends_of_ok P hex ha asn hf im h32 hr).2.2

/-- The hypotheses of the theorems about whole runs: a 2×2 image. -/
example : Img Plat.lp64 2 2 4 (List.replicate 16 7) ∧ 2 * 2 * 4 < 4294967296 ∧ AtanRange diagonal :=
  ⟨⟨by decide, by decide, by decide, by decide, by decide, by decide⟩, by decide, diagonal_range⟩

/-- An image that is missing or empty ends the program. -/
theorem detect_corners_asserts (P : Plat) (ex : ℚ → ℚ) (at2 : Dbl → Dbl → Dbl) (asn : Dbl → Dbl) (hp : Heap) (image : Option (List UInt8))
    (w h : Int) (hbad : image = none ∨ w ≤ 0 ∨ h ≤ 0) : fcv_detect_corners P ex at2 asn image w h hp = .error (.comp .exit) := by
  unfold fcv_detect_corners
  cases image with
  | none => rfl
  | some d =>
    dsimp only
    rw [if_pos (hbad.resolve_left (by simp))]
    rfl

end FlatCV.Props
