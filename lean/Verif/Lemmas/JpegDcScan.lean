/-
Scans of the first coefficients in progressive JPEG files.
-/
import Verif.Lemmas.JpegBand

namespace FlatCV
open Model Jpg Props

variable {m : UInt8} {tail : List UInt8}

/-- A loop whose rounds take the parts `L i` of a list. -/
theorem forN_parts {σ α : Type} (St : List α → σ → Prop) (L : Nat → List α) (body : Nat → σ → CM σ) : ∀ n, (∀ i < n, ∀ r s, St (L i ++ r) s → Ok (body i s) (St r)) →
    ∀ r s, St ((List.range n).flatMap L ++ r) s → Ok (forN n s body) (St r) := by
  intro n
  induction n with
  | zero => intro _ r s h; exact Ok.pure h
  | succ n ih =>
    intro step r s h
    rw [List.range_succ, List.flatMap_append, List.append_assoc] at h
    refine Ok.bind (ih (fun i hi => step i (by omega)) _ s h) fun s' hs' => step n (by omega) r s' ?_
    simpa using hs'

/-- How many cells a scan changes in each block. -/
def dcWidth (q : ScanPar) : Nat := if q.sh = 0 then 64 else 1

/-- The first coefficient is there; after a first scan the others are zero. -/
def AfterDc (q : ScanPar) (cf : Cells Int) (off : Nat) (c : Int) : Prop :=
  cf[off]? = some (some (coarseDc q.sl c)) ∧ (q.sh = 0 → ∀ z, 1 ≤ z → z < 64 → cf[off + z]? = some (some 0))

/-- Before a further scan, the first coefficient is there without one bit more. -/
def BeforeDc (q : ScanPar) (cf : Cells Int) (off : Nat) (c : Int) : Prop := q.sh ≠ 0 → cf[off]? = some (some (coarseDc (q.sl + 1) c))

theorem coarseDc_div {k : Nat} {c : Int} (h : |coarseDc k c| ≤ 32767) : |c / 2 ^ k| ≤ 32767 := by
  unfold coarseDc at h
  rw [abs_mul] at h
  have : (1 : Int) ≤ |(2 : Int) ^ k| := by
    rw [abs_of_nonneg (by positivity)]
    exact one_le_pow₀ (by norm_num)
  nlinarith [abs_nonneg (c / 2 ^ k)]

theorem dc_block (hm : m ≠ 0) (hm' : m ≠ 0xFF) {q : ScanPar} (hse : q.se = 0) {hdc : JHuff} {t : List ((Nat × Nat) × Nat)} (ht : tableOk hdc t = true) {e : Ent} {b b' : List Bool} (hE : EntOk m tail e b)
    {pred v c : Int} (hp : |pred| ≤ 32767) (hc : |coarseDc q.sl c| ≤ 32767) (hB : DcCode (asCode t) (decide (q.sh = 0)) q.sl pred c v b b') {cf : Cells Int} {off : Nat} (hoff : off + 64 ≤ cf.length)
    (hcf : BeforeDc q cf off c) :
    ∃ cf' e', prog_dc q e hdc pred cf off = .ok (some (cf', v, e')) ∧ EntOk m tail e' b' ∧ |v| ≤ 32767 ∧ AfterDc q cf' off c ∧ ∀ a, (∀ z < dcWidth q, a ≠ off + z) → cf'[a]? = cf[a]? := by
  unfold DcCode at hB
  unfold dcWidth AfterDc
  by_cases hsh : q.sh = 0
  · rw [if_pos (decide_eq_true hsh)] at hB
    obtain ⟨⟨s, x, b1, h1, h2, h3, h4⟩, rfl⟩ := hB
    obtain ⟨cf', e', r1, r2, r3, r4, r5⟩ := first_scan_dc hm hm' q hse hsh hdc t ht e b b1 b' hE s x h1 h2 h3 pred hp c hc h4 cf off hoff
    refine ⟨cf', e', r1, r2, coarseDc_div hc, ⟨r3, fun _ z hz1 hz2 => r4 z hz1 hz2⟩, fun a ha => r5 a ?_⟩
    rw [if_pos hsh] at ha
    by_contra hcon
    exact ha (a - off) (by omega) (by omega)
  · rw [if_neg (by simpa using hsh)] at hB
    obtain ⟨rfl, rfl⟩ := hB
    obtain ⟨e', r1, r2⟩ := refining_scan_dc hm hm' q hse hsh hdc e c b' hE v hc cf off (hcf hsh)
    refine ⟨_, e', r1, r2, hp, ⟨List.getElem?_set_self (by omega), fun h => absurd h hsh⟩, fun a ha => ?_⟩
    rw [if_neg hsh] at ha
    have := ha 0 (by omega)
    rw [List.getElem?_set_ne (by omega)]

/-- What is known of the components in a scan. -/
structure DcPar (p0 : Prog) (N : Nat) (c : Nat → JComp) (td : Nat → List ((Nat × Nat) × Nat)) (len : Nat → Nat) (C : Nat → Nat → Nat → Int) (all : List (Nat × Nat × Nat)) : Prop where
  se : p0.q.se = 0
  table : ∀ a < N, ∃ h, p0.j.huffDc[(c a).hd]? = some h ∧ tableOk h (td a) = true
  bound : ∀ a x y, |coarseDc p0.q.sl (C a x y)| ≤ 32767
  nodup : all.Nodup
  inside : ∀ a x y, (a, x, y) ∈ all → a < N ∧ x < (c a).w2 / 8 ∧ 64 * (x + y * ((c a).w2 / 8)) + 64 ≤ len a

/-- The state in a scan, when the blocks `l` remain. -/
structure DcSt (m : UInt8) (tail : List UInt8) (p0 : Prog) (N : Nat) (c : Nat → JComp) (td : Nat → List ((Nat × Nat) × Nat)) (cf0 : Nat → Cells Int) (C : Nat → Nat → Nat → Int)
    (all : List (Nat × Nat × Nat)) (rest : List Bool) (l : List (Nat × Nat × Nat)) (p : Prog) : Prop where
  same : p = { p0 with j := { p0.j with e := p.j.e, comps := p.j.comps, todo := p.j.todo }, coef := p.coef, eob := p.eob }
  bits : ∃ pr b, (∀ a < N, p.j.comps[a]? = some { c a with pred := pr a } ∧ |pr a| ≤ 32767) ∧ EntOk m tail p.j.e b ∧ DcScan (fun a => asCode (td a)) (decide (p0.q.sh = 0)) p0.q.sl C l pr b rest
  cells : ∃ done, all = done ++ l ∧ ∀ a < N, ∃ cf, p.coef[a]? = some cf ∧ cf.length = (cf0 a).length ∧
    (∀ x y, (a, x, y) ∈ done → AfterDc p0.q cf (64 * (x + y * ((c a).w2 / 8))) (C a x y)) ∧ (∀ x y, (a, x, y) ∈ l → BeforeDc p0.q cf (64 * (x + y * ((c a).w2 / 8))) (C a x y)) ∧
    ∀ i, (∀ x y, (a, x, y) ∈ all → ∀ z < dcWidth p0.q, i ≠ 64 * (x + y * ((c a).w2 / 8)) + z) → cf[i]? = (cf0 a)[i]?

theorem block_inj {W x y x' y' z z' : Nat} (hx : x < W) (hx' : x' < W) (hz : z < 64) (hz' : z' < 64) (h : 64 * (x + y * W) + z = 64 * (x' + y' * W) + z') : x = x' ∧ y = y' := by
  have e : x + y * W = x' + y' * W := by omega
  have d : y = y' := by
    have := congrArg (· / W) e
    simpa only [Nat.add_mul_div_right _ _ (show 0 < W by omega), Nat.div_eq_of_lt hx, Nat.div_eq_of_lt hx', Nat.zero_add] using this
  subst d
  exact ⟨by omega, rfl⟩

theorem dc_step (hm : m ≠ 0) (hm' : m ≠ 0xFF) {p0 : Prog} {N : Nat} {c : Nat → JComp} {td : Nat → List ((Nat × Nat) × Nat)} {cf0 : Nat → Cells Int} {C : Nat → Nat → Nat → Int}
    {all : List (Nat × Nat × Nat)} (P : DcPar p0 N c td (fun a => (cf0 a).length) C all) {rest : List Bool} {n x y : Nat} {l : List (Nat × Nat × Nat)} {p : Prog}
    (hp : DcSt m tail p0 N c td cf0 C all rest ((n, x, y) :: l) p) :
    ∃ p', progDcAt n x y p = .ok (some p') ∧ DcSt m tail p0 N c td cf0 C all rest l p' ∧ p'.j.todo = p.j.todo := by
  obtain ⟨hs, ⟨pr, b, hcomps, hE, v, b', hD, hS⟩, done, hall, hcells⟩ := hp
  have hmem : (n, x, y) ∈ all := by rw [hall]; simp
  obtain ⟨hn, hx, hin⟩ := P.inside n x y hmem
  obtain ⟨cf, k1, k2, k3, k4, k5⟩ := hcells n hn
  obtain ⟨h, t1, t2⟩ := P.table n hn
  obtain ⟨hcn, hpr⟩ := hcomps n hn
  obtain ⟨cf', e', r1, r2, r3, r4, r5⟩ := dc_block (q := p0.q) (cf := cf) (off := 64 * (x + y * ((c n).w2 / 8))) hm hm' P.se t2 hE hpr (P.bound n x y) hD (by rw [k2]; exact hin) (k4 x y (by simp))
  have hq : p.q = p0.q := by rw [hs]
  have hd : p.j.huffDc = p0.j.huffDc := by rw [hs]
  have l1 := (List.getElem?_eq_some_iff.1 hcn).1
  have l2 := (List.getElem?_eq_some_iff.1 k1).1
  have hwid : dcWidth p0.q ≤ 64 := by unfold dcWidth; split <;> omega
  have hw1 : 1 ≤ dcWidth p0.q := by unfold dcWidth; split <;> omega
  refine ⟨{ p with j := { p.j with comps := p.j.comps.set n { c n with pred := v }, e := e' }, coef := p.coef.set n cf' }, ?_, ⟨?_, ?_, ?_⟩, rfl⟩
  · unfold progDcAt
    rw [rdIn_ok hcn, ok_bind, rdIn_ok k1, ok_bind, hd]
    dsimp only
    rw [rdIn_ok t1, ok_bind, hq, r1, ok_bind]
    dsimp only
    unfold wrIn
    rw [if_pos l1, ok_bind, if_pos l2, ok_bind]
    rfl
  · have e3 : p.j = { p0.j with e := p.j.e, comps := p.j.comps, todo := p.j.todo } := congrArg Prog.j hs
    rw [hq]
    conv_lhs => rw [e3]
  · refine ⟨Function.update pr n v, b', fun a ha => ?_, r2, hS⟩
    by_cases e : a = n
    · subst e
      rw [Function.update_self]
      exact ⟨List.getElem?_set_self l1, r3⟩
    · rw [Function.update_of_ne e]
      exact ⟨(List.getElem?_set_ne (Ne.symm e)).trans (hcomps a ha).1, (hcomps a ha).2⟩
  · refine ⟨done ++ [(n, x, y)], by rw [hall]; simp, fun a ha => ?_⟩
    by_cases e : a = n
    · subst e
      have hnd := P.nodup
      rw [hall, List.nodup_append] at hnd
      obtain ⟨-, nd2, nd3⟩ := hnd
      have far : ∀ x' y', (a, x', y') ∈ all → ¬ (x' = x ∧ y' = y) → ∀ z < 64, cf'[64 * (x' + y' * ((c a).w2 / 8)) + z]? = cf[64 * (x' + y' * ((c a).w2 / 8)) + z]? := by
        intro x' y' hm' hne z hz
        refine r5 _ fun z' hz' he => hne ?_
        exact block_inj (P.inside a x' y' hm').2.1 hx hz (by omega) he
      refine ⟨cf', List.getElem?_set_self l2, ?_, fun x' y' h' => ?_, fun x' y' h' => ?_, fun i hi => ?_⟩
      · by_contra hne
        rw [← k2] at hne
        have hsome : ∀ z < dcWidth p0.q, 64 * (x + y * ((c a).w2 / 8)) + z < cf'.length := by
          intro z hz
          by_cases hz0 : z = 0
          · subst hz0
            exact (List.getElem?_eq_some_iff.1 r4.1).1
          · have hsh : p0.q.sh = 0 := by
              by_contra hsh
              unfold dcWidth at hz
              rw [if_neg hsh] at hz
              omega
            exact (List.getElem?_eq_some_iff.1 (r4.2 hsh z (by omega) (by omega))).1
        have hout := r5 (min cf.length cf'.length) fun z hz => by have := hsome z hz; omega
        rcases Nat.lt_or_ge cf.length cf'.length with hlt | hge
        · rw [Nat.min_eq_left (by omega), List.getElem?_eq_getElem (by omega), List.getElem?_eq_none (by omega)] at hout
          exact absurd hout (by simp)
        · rw [Nat.min_eq_right (by omega), List.getElem?_eq_none (by omega), List.getElem?_eq_getElem (by omega)] at hout
          exact absurd hout (by simp)
      · rw [List.mem_append, List.mem_singleton] at h'
        by_cases e' : x' = x ∧ y' = y
        · obtain ⟨rfl, rfl⟩ := e'
          exact r4
        · have hd' : (a, x', y') ∈ done := by
            rcases h' with h' | h'
            · exact h'
            · rw [Prod.mk.injEq, Prod.mk.injEq] at h'
              exact absurd h'.2 e'
          have f := far x' y' (by rw [hall]; exact List.mem_append_left _ hd') e'
          obtain ⟨w1, w2⟩ := k3 x' y' hd'
          exact ⟨(f 0 (by omega)).trans w1, fun hsh z hz1 hz2 => (f z hz2).trans (w2 hsh z hz1 hz2)⟩
      · have hne : ¬ (x' = x ∧ y' = y) := by
          rintro ⟨rfl, rfl⟩
          exact (List.nodup_cons.1 nd2).1 h'
        intro hsh
        exact (far x' y' (by rw [hall]; exact List.mem_append_right _ (List.mem_cons_of_mem _ h')) hne 0 (by omega)).trans (k4 x' y' (List.mem_cons_of_mem _ h') hsh)
      · rw [r5 i (fun z hz => hi x y hmem z hz)]
        exact k5 i hi
    · obtain ⟨cfa, w1, w2, w3, w4, w5⟩ := hcells a ha
      refine ⟨cfa, (List.getElem?_set_ne (Ne.symm e)).trans w1, w2, fun x' y' h' => w3 x' y' ?_, fun x' y' h' => w4 x' y' (List.mem_cons_of_mem _ h'), w5⟩
      rw [List.mem_append, List.mem_singleton, Prod.mk.injEq] at h'
      rcases h' with h' | h'
      · exact h'
      · exact absurd h'.1 e

end FlatCV
