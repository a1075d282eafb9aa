/-
Scans of one band of coefficients of progressive JPEG files.
-/
import Verif.Props.JpegRefine

namespace FlatCV
open Model Jpg Props

variable {m : UInt8} {tail : List UInt8}

/-! ### Whole scans -/

/-- The coefficients of a band before a scan. -/
def bandBefore (q : ScanPar) (c : Int) : Int := if q.sh = 0 then 0 else coarse (q.sl + 1) c

theorem band_block (hm : m ≠ 0) (hm' : m ≠ 0xFF) {q : ScanPar} (h1 : 1 ≤ q.ss) (h2 : q.ss ≤ q.se) (h63 : q.se ≤ 63) {C : Nat → Int} (hC : ∀ p, (C p).natAbs ≤ 32767)
    {h : JHuff} {fac : List Int} {t : List ((Nat × Nat) × Nat)} (ht : tableOk h t = true) (hf : facOk fac h t = true) {e : Ent} {b b' : List Bool} (hE : EntOk m tail e b) {eob eob' : Nat}
    (hB : (if decide (q.sh = 0) then FirstBlock (asCode t) q.sl else RefinedBlock (asCode t) q.sl) (band C q.ss q.se) eob eob' b b') {cf : Cells Int} {off : Nat}
    (hcf : ∀ p, q.ss ≤ p → p ≤ q.se → cf[off + zagOf p]? = some (some (bandBefore q (C p)))) :
    ∃ cf' e', prog_ac q e h fac eob cf off = .ok (some (cf', eob', e')) ∧ EntOk m tail e' b' ∧
      (∀ p, q.ss ≤ p → p ≤ q.se → cf'[off + zagOf p]? = some (some (coarse q.sl (C p)))) ∧
      ∀ a, (∀ p, q.ss ≤ p → p ≤ q.se → a ≠ off + zagOf p) → cf'[a]? = cf[a]? := by
  unfold bandBefore at hcf
  by_cases hsh : q.sh = 0
  · rw [if_pos (decide_eq_true hsh)] at hB
    simp only [if_pos hsh] at hcf
    unfold FirstBlock at hB
    by_cases he : eob = 0
    · rw [if_pos he] at hB
      subst he
      exact first_scan_block hm hm' q hsh h1 h2 h63 C hC h fac t ht hf e b b' hE eob' hB cf off hcf
    · rw [if_neg he] at hB
      obtain ⟨rfl, rfl, hs⟩ := hB
      refine ⟨cf, e, first_scan_run q hsh h1 h fac e eob he cf off, hE, fun p hp1 hp2 => ?_, fun _ _ => rfl⟩
      rw [hcf p hp1 hp2, coarse_small (of_decide_eq_true (hs (C p) ?_))]
      unfold band
      rw [List.mem_map]
      exact ⟨p - q.ss, List.mem_range.2 (by omega), by rw [show q.ss + (p - q.ss) = p by omega]⟩
  · rw [if_neg (by simpa using hsh)] at hB
    simp only [if_neg hsh] at hcf
    unfold RefinedBlock at hB
    by_cases he : eob = 0
    · rw [if_pos he] at hB
      subst he
      exact refining_scan_block hm hm' q hsh h1 h2 h63 C hC h fac t ht e b b' hE eob' hB cf off hcf
    · rw [if_neg he] at hB
      obtain ⟨rfl, rfl, hs⟩ := hB
      exact refining_scan_run hm hm' q hsh h1 h2 h63 C hC h fac e b' hE eob he hs cf off hcf

/-- The place of block `i` in an image of `bw` blocks in a row, stored in rows of `W` blocks. -/
def place (bw W i : Nat) : Nat := 64 * (i % bw + i / bw * W)

theorem place_inj {bw W i i' z z' : Nat} (hb : 0 < bw) (hW : bw ≤ W) (hz : z < 64) (hz' : z' < 64) (h : place bw W i + z = place bw W i' + z') : i = i' := by
  unfold place at h
  have e : i % bw + i / bw * W = i' % bw + i' / bw * W := by omega
  have l1 := Nat.mod_lt i hb
  have l2 := Nat.mod_lt i' hb
  have d : i / bw = i' / bw := by
    have := congrArg (· / W) e
    simp only [Nat.add_mul_div_right _ _ (show 0 < W by omega), Nat.div_eq_of_lt (show i % bw < W by omega), Nat.div_eq_of_lt (show i' % bw < W by omega), Nat.zero_add] at this
    exact this
  have r : i % bw = i' % bw := by rw [d] at e; omega
  rw [← Nat.div_add_mod i bw, ← Nat.div_add_mod i' bw, d, r]

/-- The state in a scan, after `i` blocks. -/
structure BandSt (m : UInt8) (tail : List UInt8) (p0 : Prog) (n : Nat) (cf0 : Cells Int) (bw W N : Nat) (B : List Int → Nat → Nat → List Bool → List Bool → Prop) (C : Nat → Nat → Int)
    (rest : List Bool) (i : Nat) (p : Prog) : Prop where
  same : ∃ cf, p = { p0 with j := { p0.j with e := p.j.e, todo := p0.j.todo - i }, coef := p0.coef.set n cf, eob := p.eob } ∧
    (∀ i' < N, ∀ k, p0.q.ss ≤ k → k ≤ p0.q.se → cf[place bw W i' + zagOf k]? = some (some (if i' < i then coarse p0.q.sl (C i' k) else bandBefore p0.q (C i' k)))) ∧
    ∀ a, (∀ i' < N, ∀ k, p0.q.ss ≤ k → k ≤ p0.q.se → a ≠ place bw W i' + zagOf k) → cf[a]? = cf0[a]?
  bits : ∃ b, EntOk m tail p.j.e b ∧ Scan B (((List.range N).map fun i => band (C i) p0.q.ss p0.q.se).drop i) p.eob b rest

theorem band_step (hm : m ≠ 0) (hm' : m ≠ 0xFF) {p0 : Prog} {n : Nat} {c : JComp} {cf0 : Cells Int} (hc : p0.j.comps[n]? = some c) (hcf : p0.coef[n]? = some cf0) (h1 : 1 ≤ p0.q.ss) (h2 : p0.q.ss ≤ p0.q.se)
    (h63 : p0.q.se ≤ 63) {h : JHuff} {fac : List Int} {t : List ((Nat × Nat) × Nat)} (hh : p0.j.huffAc[c.ha]? = some h) (hf : p0.j.fastAc[c.ha]? = some fac) (ht : tableOk h t = true) (hfo : facOk fac h t = true)
    {C : Nat → Nat → Int} (hC : ∀ i k, (C i k).natAbs ≤ 32767) {bw N : Nat} (hbw : 0 < bw) (hW : bw ≤ c.w2 / 8) {rest : List Bool} (htodo : (N : Int) < p0.j.todo) (htodo' : p0.j.todo ≤ 2147483647)
    {x y : Nat} (hx : x < bw) (hi : y * bw + x < N) {p : Prog}
    (hp : BandSt m tail p0 n cf0 bw (c.w2 / 8) N (if decide (p0.q.sh = 0) then FirstBlock (asCode t) p0.q.sl else RefinedBlock (asCode t) p0.q.sl) C rest (y * bw + x) p) :
    ∃ p' p'', progAcAt n x y p = .ok (some p') ∧ progAfter p' = .ok (.more p'') ∧
      BandSt m tail p0 n cf0 bw (c.w2 / 8) N (if decide (p0.q.sh = 0) then FirstBlock (asCode t) p0.q.sl else RefinedBlock (asCode t) p0.q.sl) C rest (y * bw + x + 1) p'' := by
  obtain ⟨⟨cf, heq, hcells, hout⟩, b, hE, hS⟩ := hp
  have hn := (List.getElem?_eq_some_iff.1 hcf).1
  have hlist : ((List.range N).map fun i => band (C i) p0.q.ss p0.q.se).drop (y * bw + x) =
      band (C (y * bw + x)) p0.q.ss p0.q.se :: ((List.range N).map fun i => band (C i) p0.q.ss p0.q.se).drop (y * bw + x + 1) := by
    rw [List.drop_eq_getElem_cons (by rw [List.length_map, List.length_range]; exact hi), List.getElem_map, List.getElem_range]
  rw [hlist] at hS
  obtain ⟨eob', b', hB, hS'⟩ := hS
  have hplace : place bw (c.w2 / 8) (y * bw + x) = 64 * (x + y * (c.w2 / 8)) := by
    unfold place
    rw [Nat.add_comm (y * bw), Nat.add_mul_mod_self_right, Nat.mod_eq_of_lt hx, Nat.add_mul_div_right _ _ hbw, Nat.div_eq_of_lt hx, Nat.zero_add]
  obtain ⟨cf', e', r1, r2, r3, r4⟩ := band_block (q := p0.q) (off := 64 * (x + y * (c.w2 / 8))) (cf := cf) hm hm' h1 h2 h63 (hC (y * bw + x)) ht hfo hE hB (fun k hk1 hk2 => by
    have := hcells _ hi k hk1 hk2
    rwa [hplace, if_neg (lt_irrefl _)] at this)
  have hpj : p.j.comps = p0.j.comps := by rw [heq]
  have hpa : p.j.huffAc = p0.j.huffAc := by rw [heq]
  have hpf : p.j.fastAc = p0.j.fastAc := by rw [heq]
  have hpq : p.q = p0.q := by rw [heq]
  have hpc : p.coef = p0.coef.set n cf := by rw [heq]
  have hpt : p.j.todo = p0.j.todo - ((y * bw + x : Nat) : Int) := by rw [heq]
  have hA : progAcAt n x y p = .ok (some { p with j := { p.j with e := e' }, coef := p.coef.set n cf', eob := eob' }) := by
    unfold progAcAt
    rw [hpj, rdIn_ok hc, ok_bind, hpc, rdIn_ok (List.getElem?_set_self hn), ok_bind, hpa, rdIn_ok hh, ok_bind, hpf, rdIn_ok hf, ok_bind, hpq, r1, ok_bind]
    dsimp only
    unfold wrIn
    rw [if_pos (by rw [List.length_set]; exact hn), ok_bind, ← hpc]
    rfl
  refine ⟨_, { p with j := { p.j with e := e', todo := p.j.todo - 1 }, coef := p.coef.set n cf', eob := eob' }, hA, ?_, ?_⟩
  · unfold progAfter afterMCU
    dsimp only
    rw [i32_ok (by unfold IsI32; omega), ok_bind, if_neg (by omega)]
    show Except.ok _ = _
    rw [if_neg (by omega)]
  · refine ⟨⟨cf', ?_, fun i' hi' k hk1 hk2 => ?_, fun a ha => ?_⟩, b', r2, hS'⟩
    · have e1 : p.coef.set n cf' = p0.coef.set n cf' := by rw [hpc, List.set_set]
      have e2 : p.j.todo - 1 = p0.j.todo - ((y * bw + x + 1 : Nat) : Int) := by rw [hpt]; push_cast; ring
      have e3 : p.j = { p0.j with e := p.j.e, todo := p.j.todo } := by
        have := congrArg Prog.j heq
        rw [hpt]
        exact this
      rw [e1, e2, hpq, e3]
    · by_cases e : i' = y * bw + x
      · subst e
        rw [hplace, if_pos (by omega)]
        exact r3 k hk1 hk2
      · rw [r4 _ (fun k' hk1' hk2' e' => e (place_inj hbw hW (zagOf_lt k (by omega)) (zagOf_lt k' (by omega)) (by rw [hplace]; exact e'))), hcells i' hi' k hk1 hk2]
        by_cases h' : i' < y * bw + x
        · rw [if_pos h', if_pos (by omega)]
        · rw [if_neg h', if_neg (by omega)]
    · rw [r4 a (fun k hk1 hk2 e' => ha _ hi k hk1 hk2 (by rw [hplace]; exact e')), hout a ha]

end FlatCV
