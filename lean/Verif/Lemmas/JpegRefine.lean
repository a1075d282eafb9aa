/-
The refining scans of progressive JPEG files.
-/
import Verif.Spec.JpegProg
import Verif.Model.JpegProg
import Verif.Lemmas.JpegHuff
import Verif.Lemmas.JpegIdct
import Verif.Lemmas.JpegPixels

namespace FlatCV
open Model Jpg

variable {m : UInt8} {tail : List UInt8}

/-! ### Bits -/

theorem progBit_ok (hm : m ≠ 0) (hm' : m ≠ 0xFF) {j : Ent} {b : Bool} {R : List Bool} (hj : EntOk m tail j (b :: R)) :
    ∃ j', prog_bit j = .ok (b, j') ∧ EntOk m tail j' R := by
  unfold prog_bit
  obtain ⟨j1, e1, k1, kf, kb⟩ := need_ok hm hm' hj (n := 1) (by omega)
  rw [List.length_cons, Nat.min_eq_left (by omega)] at kb
  rw [e1, ok_bind, if_neg (by omega)]
  obtain ⟨f1, f2⟩ := front_bits k1 kb (by rw [List.length_cons]; omega)
  have hd := drop_ok k1 kb (by rw [List.length_cons]; omega)
  refine ⟨_, ?_, hd⟩
  have hb : decide (2147483648 ≤ j1.buf) = b := by
    cases b with
    | false =>
      have : j1.buf / 2147483648 = 0 := f1
      rw [decide_eq_false_iff_not]
      omega
    | true =>
      have : j1.buf / 2147483648 = 1 := f1
      rw [decide_eq_true_eq]
      omega
  rw [hb]
  rfl

theorem eobBits_ok (hm : m ≠ 0) (hm' : m ≠ 0xFF) {j : Ent} {R rest : List Bool} (hj : EntOk m tail j R) {r x : Nat} (hr : r < 15) (hx : receive r R = some (x, rest)) :
    ∃ j', eobBits j r = .ok (x, j') ∧ EntOk m tail j' rest := by
  unfold receive at hx
  split at hx
  · rename_i hn
    rw [Option.some.injEq, Prod.mk.injEq] at hx
    obtain ⟨rfl, rfl⟩ := hx
    unfold eobBits
    by_cases h0 : r = 0
    · subst h0
      exact ⟨j, rfl, hj⟩
    · rw [if_pos h0]
      unfold prog_bits
      obtain ⟨j1, e1, k1, kf, kb⟩ := need_ok hm hm' hj (n := r) (by omega)
      rw [Nat.min_eq_left hn] at kb
      rw [e1, ok_bind, if_neg (by omega)]
      obtain ⟨f1, f2⟩ := front_bits k1 kb hn
      have hd := drop_ok k1 kb hn
      refine ⟨_, ?_, hd⟩
      rw [f1]
      rfl
  · exact absurd hx (by simp)

/-! ### Coefficients -/

theorem coarse_abs (k : Nat) (c : Int) : |coarse k c| ≤ c.natAbs := by
  have h := Nat.div_mul_le_self c.natAbs (2 ^ k)
  unfold coarse
  rw [abs_le]
  split <;> constructor <;> omega

theorem coarse_small {k : Nat} {c : Int} (h : c.natAbs < 2 ^ k) : coarse k c = 0 := by
  unfold coarse
  rw [Nat.div_eq_of_lt h, Nat.zero_mul]
  split <;> simp

theorem coarse_old {k : Nat} {c : Int} (h : 2 ^ k ≤ c.natAbs) : coarse k c ≠ 0 := by
  have h1 : 1 ≤ c.natAbs / 2 ^ k := (Nat.one_le_div_iff (by positivity)).2 h
  have h2 : 1 ≤ c.natAbs / 2 ^ k * 2 ^ k := Nat.mul_pos h1 (by positivity)
  unfold coarse
  split <;> omega

theorem coarse_split (k n : Nat) : n / 2 ^ k * 2 ^ k = n / 2 ^ (k + 1) * 2 ^ (k + 1) + n / 2 ^ k % 2 * 2 ^ k := by
  have h : n / 2 ^ (k + 1) = n / 2 ^ k / 2 := by rw [Nat.div_div_eq_div_mul, pow_succ]
  rw [h]
  generalize n / 2 ^ k = a
  rw [pow_succ, ← Nat.mul_assoc, Nat.mul_right_comm, ← Nat.add_mul]
  congr 1
  omega

theorem coarse_fresh {k : Nat} {c : Int} (h1 : 2 ^ k ≤ c.natAbs) (h2 : c.natAbs < 2 ^ (k + 1)) : coarse k c = if decide (0 < c) then 2 ^ k else -2 ^ k := by
  have e : c.natAbs / 2 ^ k = 1 := by
    refine Nat.div_eq_of_lt_le ?_ ?_
    · omega
    · rw [pow_succ] at h2
      omega
  have hp : 0 < 2 ^ k := Nat.two_pow_pos k
  unfold coarse
  rw [e, Nat.one_mul]
  by_cases hc : 0 < c
  · rw [if_pos (by omega), if_pos (by simpa using hc)]
    push_cast
    rfl
  · rw [if_neg (by omega), if_neg (by simpa using hc)]
    push_cast
    rfl

theorem set_same {α : Type} {l : List α} {i : Nat} {a : α} (h : l[i]? = some a) : l.set i a = l := by
  obtain ⟨hi, rfl⟩ := List.getElem?_eq_some_iff.1 h
  exact List.set_getElem_self hi

theorem refineCoef_ok (hm : m ≠ 0) (hm' : m ≠ 0xFF) {q : ScanPar} {e : Ent} {cf : Cells Int} {p : Nat} {c : Int} {R : List Bool} (hc : c.natAbs ≤ 32767) (ho : 2 ^ (q.sl + 1) ≤ c.natAbs)
    (hcell : cf[p]? = some (some (coarse (q.sl + 1) c))) (hj : EntOk m tail e (decide (c.natAbs / 2 ^ q.sl % 2 = 1) :: R)) :
    ∃ e', refineCoef q e cf p (coarse (q.sl + 1) c) = .ok (e', cf.set p (some (coarse q.sl c))) ∧ EntOk m tail e' R := by
  unfold refineCoef
  obtain ⟨e', h1, h2⟩ := progBit_ok hm hm' hj
  rw [h1, ok_bind]
  refine ⟨e', ?_, h2⟩
  have hs := coarse_split q.sl c.natAbs
  have hp : p < cf.length := (List.getElem?_eq_some_iff.1 hcell).1
  have hpos : 0 < 2 ^ q.sl := Nat.two_pow_pos _
  have ha := coarse_abs q.sl c
  have hne := coarse_old ho
  dsimp only
  by_cases hb : c.natAbs / 2 ^ q.sl % 2 = 1
  · have heven : coarse (q.sl + 1) c / 2 ^ q.sl % 2 = 0 := by
      have : ∀ a : Nat, ((a * 2 ^ (q.sl + 1) : Nat) : Int) = 2 ^ q.sl * (2 * a) := by
        intro a
        push_cast
        ring
      unfold coarse
      split
      · rw [this, Int.mul_ediv_cancel_left _ (by positivity)]
        omega
      · rw [this, ← Int.mul_neg, Int.mul_ediv_cancel_left _ (by positivity)]
        omega
    rw [if_pos ⟨by rw [decide_eq_true_eq]; exact hb, heven⟩]
    have hv : (if 0 < coarse (q.sl + 1) c then coarse (q.sl + 1) c + 2 ^ q.sl else coarse (q.sl + 1) c - 2 ^ q.sl) = coarse q.sl c := by
      have hcast : ((2 ^ q.sl : Nat) : Int) = 2 ^ q.sl := by push_cast; rfl
      rw [hb, Nat.one_mul] at hs
      rw [← hcast]
      unfold coarse at hne ⊢
      by_cases h0 : 0 ≤ c
      · simp only [if_pos h0] at hne ⊢
        rw [if_pos (by omega)]
        omega
      · simp only [if_neg h0] at hne ⊢
        rw [if_neg (by omega)]
        omega
    rw [hv, asShort_id (by omega), wr_eq hp, ok_bind]
    rfl
  · rw [if_neg (by rintro ⟨h, _⟩; exact hb (of_decide_eq_true h))]
    have hv : coarse q.sl c = coarse (q.sl + 1) c := by
      rw [show c.natAbs / 2 ^ q.sl % 2 = 0 by omega, Nat.zero_mul, Nat.add_zero] at hs
      unfold coarse
      rw [hs]
    rw [hv, set_same hcell]
    rfl

/-! ### The band -/

/-- The coefficients before position `i` of the band are refined; those outside the band are as before. -/
structure Mid (q : ScanPar) (off : Nat) (C : Nat → Int) (cf0 cf : Cells Int) (i : Nat) : Prop where
  fin : ∀ p, q.ss ≤ p → p < i → cf[off + zagOf p]? = some (some (coarse q.sl (C p)))
  todo : ∀ p, i ≤ p → p ≤ q.se → cf[off + zagOf p]? = some (some (coarse (q.sl + 1) (C p)))
  out : ∀ a, (∀ p, q.ss ≤ p → p ≤ q.se → a ≠ off + zagOf p) → cf[a]? = cf0[a]?

theorem Mid.step {q : ScanPar} {off : Nat} {C : Nat → Int} {cf0 cf : Cells Int} {i : Nat} (h : Mid q off C cf0 cf i) (h1 : q.ss ≤ i) (h2 : i ≤ q.se) (h3 : q.se ≤ 63) :
    Mid q off C cf0 (cf.set (off + zagOf i) (some (coarse q.sl (C i)))) (i + 1) := by
  have hi := (List.getElem?_eq_some_iff.1 (h.todo i le_rfl h2)).1
  refine ⟨fun p hp1 hp2 => ?_, fun p hp1 hp2 => ?_, fun a ha => ?_⟩
  · by_cases e : p = i
    · subst e
      exact List.getElem?_set_self hi
    · rw [List.getElem?_set_ne (fun e' => e (zagOf_inj _ (by omega) _ (by omega) (by omega)).symm)]
      exact h.fin p hp1 (by omega)
  · rw [List.getElem?_set_ne (fun e' => absurd (zagOf_inj _ (by omega) _ (by omega) (show zagOf i = zagOf p by omega)) (by omega))]
    exact h.todo p (by omega) hp2
  · rw [List.getElem?_set_ne (fun e' => ha i h1 h2 e'.symm)]
    exact h.out a ha

/-- The list is part of the coefficients, from position `i` on. -/
def Sub (C : Nat → Int) (i : Nat) (l : List Int) : Prop := ∀ p c, l[p]? = some c → C (i + p) = c

theorem Sub.cons {C : Nat → Int} {i : Nat} {c : Int} {l : List Int} (h : Sub C i (c :: l)) : C i = c ∧ Sub C (i + 1) l := by
  refine ⟨h 0 c rfl, fun p a hp => ?_⟩
  have := h (p + 1) a (by rw [List.getElem?_cons_succ]; exact hp)
  rwa [show i + (p + 1) = i + 1 + p by omega] at this

theorem Sub.append {C : Nat → Int} {i : Nat} {a b : List Int} (h : Sub C i (a ++ b)) : Sub C i a ∧ Sub C (i + a.length) b := by
  refine ⟨fun p c hp => h p c ?_, fun p c hp => ?_⟩
  · rw [List.getElem?_append_left (List.getElem?_eq_some_iff.1 hp).1]
    exact hp
  · have := h (a.length + p) c (by rw [List.getElem?_append_right (by omega), show a.length + p - a.length = p by omega]; exact hp)
    rwa [← Nat.add_assoc] at this

theorem refine_walk (hm : m ≠ 0) (hm' : m ≠ 0xFF) {q : ScanPar} {off : Nat} {C : Nat → Int} (hC : ∀ p, (C p).natAbs ≤ 32767) (h63 : q.se ≤ 63) {cf0 : Cells Int} {s : Int} {r : Nat} {R : List Bool} :
    ∀ (seg : List Int) (i : Nat) (e : Ent) (cf : Cells Int), (∀ a ∈ seg, old q.sl a = true ∨ small q.sl a = true) → Sub C i seg → q.ss ≤ i → i + seg.length ≤ q.se + 1 →
      Mid q off C cf0 cf i → EntOk m tail e (corrections q.sl seg ++ R) →
      ∃ e' cf', EntOk m tail e' R ∧ Mid q off C cf0 cf' (i + seg.length) ∧
        ∀ fuel, whileFuel (fuel + seg.length) (⟨e, i, cf, r + seg.countP (small q.sl)⟩ : RefSt) (refineStep q off s) =
          whileFuel fuel (⟨e', i + seg.length, cf', r⟩ : RefSt) (refineStep q off s) := by
  intro seg
  induction seg with
  | nil => intro i e cf _ _ _ _ hM hE; exact ⟨e, cf, hE, hM, fun fuel => rfl⟩
  | cons c seg ih =>
    intro i e cf hseg hS hi hle hM hE
    obtain ⟨hc, hS'⟩ := hS.cons
    rw [List.length_cons] at hle
    have hcell := hM.todo i le_rfl (by omega)
    have hz := zag_get i (by omega)
    rw [hc] at hcell
    have hM' := hM.step hi (by omega) h63
    rw [hc] at hM'
    have hC' := hC i
    rw [hc] at hC'
    have hfit : 2 ^ q.sl ≤ 2 ^ (q.sl + 1) := Nat.pow_le_pow_right (by decide) (by omega)
    rcases hseg c List.mem_cons_self with ho | hs
    · have ho' := of_decide_eq_true ho
      have hs : small q.sl c = false := by
        unfold small
        rw [decide_eq_false_iff_not]
        omega
      have hcor : corrections q.sl (c :: seg) ++ R = decide (c.natAbs / 2 ^ q.sl % 2 = 1) :: (corrections q.sl seg ++ R) := by
        unfold corrections
        rw [List.filter_cons_of_pos ho]
        rfl
      rw [hcor] at hE
      obtain ⟨e1, g1, g2⟩ := refineCoef_ok hm hm' hC' ho' hcell hE
      obtain ⟨e', cf', k1, k2, k3⟩ := ih (i + 1) e1 _ (fun a ha => hseg a (List.mem_cons_of_mem _ ha)) hS' (by omega) (by omega) hM' g2
      rw [show i + 1 + seg.length = i + (seg.length + 1) by omega] at k2 k3
      refine ⟨e', cf', k1, k2, fun fuel => ?_⟩
      rw [List.countP_cons_of_neg (by rw [hs]; decide), List.length_cons, ← k3 fuel, ← Nat.add_assoc]
      refine whileFuel_cont ?_
      unfold refineStep
      rw [if_neg (by dsimp only; omega), rdIn_ok hz, ok_bind, rd_cell hcell, ok_bind, if_pos (coarse_old ho'), g1, ok_bind]
      rfl
    · have hs' := of_decide_eq_true hs
      have ho : ¬ old q.sl c = true := by
        unfold old
        rw [decide_eq_true_eq]
        omega
      have hcor : corrections q.sl (c :: seg) = corrections q.sl seg := by
        unfold corrections
        rw [List.filter_cons_of_neg ho]
      rw [hcor] at hE
      have h0 : coarse (q.sl + 1) c = 0 := coarse_small (by omega)
      have h0' : coarse q.sl c = 0 := coarse_small hs'
      rw [h0] at hcell
      rw [h0', set_same hcell] at hM'
      obtain ⟨e', cf', k1, k2, k3⟩ := ih (i + 1) e cf (fun a ha => hseg a (List.mem_cons_of_mem _ ha)) hS' (by omega) (by omega) hM' hE
      rw [show i + 1 + seg.length = i + (seg.length + 1) by omega] at k2 k3
      refine ⟨e', cf', k1, k2, fun fuel => ?_⟩
      rw [List.countP_cons_of_pos hs, List.length_cons, ← k3 fuel, ← Nat.add_assoc]
      refine whileFuel_cont ?_
      unfold refineStep
      rw [if_neg (by dsimp only; omega), rdIn_ok hz, ok_bind, rd_cell hcell, ok_bind, if_neg (by simp), if_neg (by dsimp only; omega)]
      rfl

theorem refine_place {q : ScanPar} {off : Nat} {C : Nat → Int} (hC : ∀ p, (C p).natAbs ≤ 32767) (h63 : q.se ≤ 63) {cf0 cf : Cells Int} {i : Nat} (hi : q.ss ≤ i) (hle : i ≤ q.se)
    (hM : Mid q off C cf0 cf i) (hold : (C i).natAbs < 2 ^ (q.sl + 1)) (e : Ent) (fuel : Nat) :
    ∃ cf', Mid q off C cf0 cf' (i + 1) ∧ whileFuel (fuel + 1) (⟨e, i, cf, 0⟩ : RefSt) (refineStep q off (coarse q.sl (C i))) = .ok ⟨e, i + 1, cf', 0⟩ := by
  have hcell := hM.todo i le_rfl hle
  have hz := zag_get i (by omega)
  rw [coarse_small hold] at hcell
  have hlen := (List.getElem?_eq_some_iff.1 hcell).1
  refine ⟨_, hM.step hi hle h63, ?_⟩
  refine whileFuel_stop ?_
  unfold refineStep
  have ha := coarse_abs q.sl (C i)
  have := hC i
  rw [if_neg (by dsimp only; omega), rdIn_ok hz, ok_bind, rd_cell hcell, ok_bind, if_neg (by simp), if_pos rfl, asShort_id (by omega), wr_eq hlen, ok_bind]
  rfl

theorem refine_end {q : ScanPar} {off : Nat} {s : Int} {e : Ent} {cf : Cells Int} {r i : Nat} (hi : q.se < i) (fuel : Nat) :
    whileFuel (fuel + 1) (⟨e, i, cf, r⟩ : RefSt) (refineStep q off s) = .ok ⟨e, i, cf, r⟩ := by
  refine whileFuel_stop ?_
  unfold refineStep
  rw [if_pos hi]
  rfl

theorem refined_nil {t : Code} {k : Nat} {cs : List Int} {eob : Nat} {b rest : List Bool} (h : Refined t k cs eob b rest) (hcs : cs = []) : eob = 0 ∧ b = rest := by
  cases h with
  | done => exact ⟨rfl, rfl⟩
  | fresh => simp at hcs
  | zeros => simp at hcs
  | ended _ _ _ hne => exact absurd hcs hne

/-- All codes of a block. -/
theorem refine_code (hm : m ≠ 0) (hm' : m ≠ 0xFF) {q : ScanPar} {off : Nat} {C : Nat → Int} (hC : ∀ p, (C p).natAbs ≤ 32767) (h63 : q.se ≤ 63) {cf0 : Cells Int} {h : JHuff}
    {t : List ((Nat × Nat) × Nat)} (ht : tableOk h t = true) {cs : List Int} {eob : Nat} {b rest : List Bool} (hR : Refined (asCode t) q.sl cs eob b rest) :
    ∀ (i fuel : Nat) (e : Ent) (cf : Cells Int), cs ≠ [] → Sub C i cs → q.ss ≤ i → i + cs.length = q.se + 1 → cs.length ≤ fuel → Mid q off C cf0 cf i → EntOk m tail e b →
      ∃ e' cf', whileFuel fuel (⟨e, i, cf, 0, true⟩ : PacSt) (refineCode q h off) = .ok ⟨e', q.se + 1, cf', eob, true⟩ ∧ EntOk m tail e' rest ∧ Mid q off C cf0 cf' (q.se + 1) := by
  -- what happens after a coefficient has been placed
  have place : ∀ {seg cs : List Int} {c : Int} {eob : Nat} {b' rest : List Bool}, Refined (asCode t) q.sl cs eob b' rest →
      (∀ (i fuel : Nat) (e : Ent) (cf : Cells Int), cs ≠ [] → Sub C i cs → q.ss ≤ i → i + cs.length = q.se + 1 → cs.length ≤ fuel → Mid q off C cf0 cf i → EntOk m tail e b' →
        ∃ e' cf', whileFuel fuel (⟨e, i, cf, 0, true⟩ : PacSt) (refineCode q h off) = .ok ⟨e', q.se + 1, cf', eob, true⟩ ∧ EntOk m tail e' rest ∧ Mid q off C cf0 cf' (q.se + 1)) →
      (∀ a ∈ seg, old q.sl a = true ∨ small q.sl a = true) → c.natAbs < 2 ^ (q.sl + 1) →
      ∀ (i fuel : Nat) (e e1 : Ent) (cf : Cells Int), Sub C i (seg ++ c :: cs) → q.ss ≤ i → i + (seg ++ c :: cs).length = q.se + 1 → (seg ++ c :: cs).length ≤ fuel → Mid q off C cf0 cf i →
        EntOk m tail e1 (corrections q.sl seg ++ b') →
        (refineCode q h off (⟨e, i, cf, 0, true⟩ : PacSt) = do
          let b ← whileFuel 65 (⟨e1, i, cf, seg.countP (small q.sl)⟩ : RefSt) (refineStep q off (coarse q.sl c))
          Pure.pure (⟨b.e, b.k, b.cf, 0, true⟩, decide (q.se < b.k))) →
        ∃ e' cf', whileFuel fuel (⟨e, i, cf, 0, true⟩ : PacSt) (refineCode q h off) = .ok ⟨e', q.se + 1, cf', eob, true⟩ ∧ EntOk m tail e' rest ∧ Mid q off C cf0 cf' (q.se + 1) := by
    intro seg cs c eob b' rest hR ih hseg hc i fuel e e1 cf hS hi hlen hfuel hM hE hcode
    obtain ⟨hS1, hS2⟩ := hS.append
    obtain ⟨hCc, hS3⟩ := hS2.cons
    rw [List.length_append, List.length_cons] at hlen hfuel
    obtain ⟨e2, cf2, w1, w2, w3⟩ := refine_walk hm hm' hC h63 (s := coarse q.sl c) (r := 0) seg i e1 cf hseg hS1 hi (by omega) hM hE
    obtain ⟨cf3, p1, p2⟩ := refine_place hC h63 (i := i + seg.length) (by omega) (by omega) w2 (by rw [hCc]; exact hc) e2 (64 - seg.length)
    have h3 := w3 (64 - seg.length + 1)
    rw [show 64 - seg.length + 1 + seg.length = 65 by omega, Nat.zero_add] at h3
    rw [hCc] at p2
    rw [h3, p2, ok_bind] at hcode
    obtain ⟨f, rfl⟩ : ∃ f, fuel = f + 1 := ⟨fuel - 1, by omega⟩
    by_cases hcs : cs = []
    · subst hcs
      rw [List.length_nil] at hlen
      obtain ⟨rfl, rfl⟩ := refined_nil hR rfl
      rw [show i + seg.length + 1 = q.se + 1 by omega] at hcode p1
      refine ⟨e2, cf3, whileFuel_stop ?_, w1, p1⟩
      rw [hcode]
      dsimp only
      rw [decide_eq_true (by omega)]
      rfl
    · have hpos : 0 < cs.length := List.length_pos_iff.2 hcs
      obtain ⟨e4, cf4, r1, r2, r3⟩ := ih (i + seg.length + 1) f e2 cf3 hcs hS3 (by omega) (by omega) (by omega) p1 w1
      refine ⟨e4, cf4, ?_, r2, r3⟩
      rw [← r1]
      refine whileFuel_cont ?_
      rw [hcode]
      dsimp only
      rw [decide_eq_false (by omega)]
      rfl
  induction hR with
  | done b => intro i fuel e cf hne; exact absurd rfl hne
  | @fresh seg cs c eob b b' rest hs hseg h1 h2 hcs ih =>
    intro i fuel e cf _ hS hi hlen hfuel hM hE
    have hold : c.natAbs < 2 ^ (q.sl + 1) := by
      have := of_decide_eq_false h1
      omega
    have hnew : 2 ^ q.sl ≤ c.natAbs := by
      have := of_decide_eq_false h2
      omega
    obtain ⟨e1, d1, d2, _, d3⟩ := jhuff_ok hm hm' ht hE hs
    obtain ⟨e2, b1, b2⟩ := progBit_ok hm hm' d2
    refine place hcs ih hseg hold i fuel e e2 cf hS hi hlen hfuel hM b2 ?_
    unfold refineCode
    rw [d1, ok_bind]
    dsimp only
    rw [if_neg (by omega)]
    unfold refineHead
    rw [if_neg (by omega), if_neg (by omega), b1, ok_bind]
    dsimp only
    rw [show (((16 * seg.countP (small q.sl) + 1 : Nat) : Int) / 16).toNat = seg.countP (small q.sl) by omega, coarse_fresh hnew hold]
    rfl
  | @zeros seg cs c eob b b' rest hs hn hseg hc hcs ih =>
    intro i fuel e cf _ hS hi hlen hfuel hM hE
    have hc' : c.natAbs < 2 ^ q.sl := of_decide_eq_true hc
    obtain ⟨e1, d1, d2, _, d3⟩ := jhuff_ok hm hm' ht hE hs
    refine place hcs ih hseg (lt_of_lt_of_le hc' (Nat.pow_le_pow_right (by decide) (by omega))) i fuel e e1 cf hS hi hlen hfuel hM d2 ?_
    unfold refineCode
    rw [d1, ok_bind]
    dsimp only
    rw [if_neg (by decide)]
    unfold refineHead
    rw [if_pos (by decide), if_neg (by decide), hn, coarse_small hc']
    rfl
  | @ended cs r x b b' rest hr hs hx hne hcs =>
    intro i fuel e cf _ hS hi hlen hfuel hM hE
    have hpos : 0 < cs.length := List.length_pos_iff.2 hne
    obtain ⟨e1, d1, d2, _, d3⟩ := jhuff_ok hm hm' ht hE hs
    obtain ⟨e2, b1, b2⟩ := eobBits_ok hm hm' d2 hr hx
    have hz : cs.countP (small q.sl) ≤ 64 := (List.countP_le_length).trans (by omega)
    obtain ⟨e3, cf3, w1, w2, w3⟩ := refine_walk hm hm' hC h63 (s := 0) (r := 64 - cs.countP (small q.sl)) cs i e2 cf hcs hS hi (by omega) hM b2
    have h3 := w3 (64 - cs.length + 1)
    rw [show 64 - cs.length + 1 + cs.length = 65 by omega, Nat.sub_add_cancel hz, hlen, refine_end (i := q.se + 1) (by omega)] at h3
    rw [hlen] at w2
    obtain ⟨f, rfl⟩ : ∃ f, fuel = f + 1 := ⟨fuel - 1, by omega⟩
    refine ⟨e3, cf3, whileFuel_stop ?_, w1, w2⟩
    unfold refineCode
    rw [d1, ok_bind]
    dsimp only
    rw [if_neg (by omega)]
    unfold refineHead
    rw [if_pos (by omega), if_pos (by omega), show (((16 * r : Nat) : Int) / 16).toNat = r by omega, b1, ok_bind]
    show (whileFuel 65 (⟨e2, i, cf, 64⟩ : RefSt) (refineStep q off 0) >>= fun b => Pure.pure ((⟨b.e, b.k, b.cf, 2 ^ r - 1 + x, true⟩ : PacSt), decide (q.se < b.k))) = _
    rw [h3, ok_bind, decide_eq_true (by dsimp only; omega)]
    rfl

/-- A block in a run of ended blocks. -/
theorem refine_run (hm : m ≠ 0) (hm' : m ≠ 0xFF) {q : ScanPar} {off : Nat} {C : Nat → Int} (hC : ∀ p, (C p).natAbs ≤ 32767) (h63 : q.se ≤ 63) {cf0 : Cells Int} {cs : List Int} {rest : List Bool}
    (hcs : ∀ a ∈ cs, old q.sl a = true ∨ small q.sl a = true) (hS : Sub C q.ss cs) (hlen : q.ss + cs.length = q.se + 1) {e : Ent} (hM : Mid q off C cf0 cf0 q.ss)
    (hE : EntOk m tail e (corrections q.sl cs ++ rest)) : ∃ e' cf', refineRun q e cf0 off = .ok (e', cf') ∧ EntOk m tail e' rest ∧ Mid q off C cf0 cf' (q.se + 1) := by
  unfold refineRun
  rw [show q.se + 1 - q.ss = cs.length by omega]
  have hI : Ok (forN cs.length (e, cf0) fun i (st : Ent × Cells Int) => do
      let z ← rdIn jpgZag (q.ss + i)
      let v ← rd st.2 (off + z)
      if v ≠ 0 then refineCoef q st.1 st.2 (off + z) v else Pure.pure st)
      (fun st => Mid q off C cf0 st.2 (q.ss + cs.length) ∧ EntOk m tail st.1 (corrections q.sl (cs.drop cs.length) ++ rest)) := by
    refine forN_ok (fun i (st : Ent × Cells Int) => Mid q off C cf0 st.2 (q.ss + i) ∧ EntOk m tail st.1 (corrections q.sl (cs.drop i) ++ rest)) ⟨hM, hE⟩ ?_
    rintro i hi ⟨e, cf⟩ ⟨hM, hE⟩
    dsimp only at hM hE ⊢
    rw [List.drop_eq_getElem_cons hi] at hE
    have hc := hS i cs[i] (List.getElem?_eq_getElem hi)
    have hmem := hcs cs[i] (List.getElem_mem hi)
    generalize cs[i] = c at hE hc hmem
    have hcell := hM.todo (q.ss + i) le_rfl (by omega)
    have hM' := hM.step (by omega) (by omega) h63
    have hC' := hC (q.ss + i)
    rw [hc] at hcell hM' hC'
    rw [rdIn_ok (zag_get (q.ss + i) (by omega)), ok_bind, rd_cell hcell, ok_bind]
    have hfit : 2 ^ q.sl ≤ 2 ^ (q.sl + 1) := Nat.pow_le_pow_right (by decide) (by omega)
    rcases hmem with ho | hs
    · have ho' := of_decide_eq_true ho
      have hcor : corrections q.sl (c :: cs.drop (i + 1)) ++ rest = decide (c.natAbs / 2 ^ q.sl % 2 = 1) :: (corrections q.sl (cs.drop (i + 1)) ++ rest) := by
        unfold corrections
        rw [List.filter_cons_of_pos ho]
        rfl
      rw [hcor] at hE
      obtain ⟨e1, g1, g2⟩ := refineCoef_ok hm hm' hC' ho' hcell hE
      rw [if_pos (coarse_old ho')]
      exact ⟨_, g1, hM', g2⟩
    · have hs' := of_decide_eq_true hs
      have ho : ¬ old q.sl c = true := by
        unfold old
        rw [decide_eq_true_eq]
        omega
      have hcor : corrections q.sl (c :: cs.drop (i + 1)) = corrections q.sl (cs.drop (i + 1)) := by
        unfold corrections
        rw [List.filter_cons_of_neg ho]
      rw [hcor] at hE
      have h0 : coarse (q.sl + 1) c = 0 := coarse_small (by omega)
      have h0' : coarse q.sl c = 0 := coarse_small hs'
      rw [h0] at hcell ⊢
      rw [h0', set_same hcell] at hM'
      rw [if_neg (by simp)]
      exact ⟨_, rfl, hM', hE⟩
  obtain ⟨⟨e', cf'⟩, h1, h2, h3⟩ := hI
  rw [List.drop_length] at h3
  rw [hlen] at h2
  exact ⟨e', cf', h1, h3, h2⟩

end FlatCV
