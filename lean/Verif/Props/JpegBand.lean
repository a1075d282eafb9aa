/-
C144: whole scans of a band of coefficients of progressive JPEG files, from the bytes of the scan.
-/
import Verif.Lemmas.JpegBand
import Verif.Lemmas.JpegHead

namespace FlatCV.Props
open Model Jpg

variable {m : UInt8} {tail : List UInt8}

/-- C144, C146: a table in the file, with the numbers of words of each length and the values: afterwards the decoder has the code of T.81, annex C, in the sense of the
hypotheses `tableOk` and `facOk` below, whatever the table was before. -/
theorem table_from_file (j : Jst) (h : CtxOk j.e.s) (tc th : Nat) (q : UInt8) (hq : q.toNat = tc * 16 + th) (htc : tc ≤ 1) (hth : th ≤ 3) (counts vals l : List UInt8) (G : GoodCode counts vals)
    (hr : Ctx.rem j.e.s = q :: (counts ++ (vals ++ l))) (hb : ∃ h0, (if tc = 0 then j.huffDc else j.huffAc)[th]? = some h0 ∧ Blank h0) (hf : j.fastAc.length = 4) :
    ∃ j' h' fac t, dhtTable j = .ok (some (j', vals.length)) ∧ Ctx.rem j'.e.s = l ∧ CtxOk j'.e.s ∧ (if tc = 0 then j'.huffDc else j'.huffAc)[th]? = some h' ∧ (tc = 1 → j'.fastAc[th]? = some fac) ∧
      tableOk h' t = true ∧ facOk fac h' t = true ∧ asCode t = mkCode (counts.map (·.toNat)) (vals.map (·.toNat)) := by
  obtain ⟨s', h', fac, e1, e2, e3, e4⟩ := dhtTable_ok h hq htc hth G hr hb hf
  obtain ⟨h0, hh0, -⟩ := hb
  have hl := (List.getElem?_eq_some_iff.1 hh0).1
  by_cases h0 : tc = 0
  · rw [if_pos h0] at e1 hl
    refine ⟨_, h', fac, _, e1, e2.rem, e2.ok, ?_, fun h => by omega, e3, e4, (mkCode_eq _ _).symm⟩
    rw [if_pos h0]
    exact List.getElem?_set_self hl
  · rw [if_neg h0] at e1 hl
    refine ⟨_, h', fac, _, e1, e2.rem, e2.ok, ?_, fun _ => List.getElem?_set_self (by omega), e3, e4, (mkCode_eq _ _).symm⟩
    rw [if_neg h0]
    exact List.getElem?_set_self hl

/-- C144: a scan of a band of one component, in a file without restart intervals: the bytes of the scan, up to the next marker, are those of T.81 for the coefficients `C x y k`. Afterwards the
coefficients of the band are those without `q.sl` low bits; all others are as before. -/
theorem band_scan (hm : m ≠ 0) (hm' : m ≠ 0xFF) (p : Prog) (n : Nat) (hord : p.j.order[0]? = some n) (c : JComp) (hc : p.j.comps[n]? = some c) (hpos : 1 ≤ c.x) (hW : c.x ≤ c.w2) (h8 : c.w2 % 8 = 0)
    (hbig : (c.x + 7) / 8 * ((c.y + 7) / 8) < 2147483647) (hrs : p.j.restart = 0)
    (h1 : 1 ≤ p.q.ss) (h2 : p.q.ss ≤ p.q.se) (h63 : p.q.se ≤ 63) (h : JHuff) (fac : List Int) (t : List ((Nat × Nat) × Nat)) (hh : p.j.huffAc[c.ha]? = some h) (hf : p.j.fastAc[c.ha]? = some fac)
    (ht : tableOk h t = true) (hfo : facOk fac h t = true) (C : Nat → Nat → Nat → Int) (hC : ∀ x y k, (C x y k).natAbs ≤ 32767) (cf : Cells Int) (hcf : p.coef[n]? = some cf)
    (hbef : ∀ x < (c.x + 7) / 8, ∀ y < (c.y + 7) / 8, ∀ k, p.q.ss ≤ k → k ≤ p.q.se → cf[64 * (x + y * (c.w2 / 8)) + zagOf k]? = some (some (bandBefore p.q (C x y k))))
    (hctx : CtxOk p.j.e.s) (data : List UInt8) (hdata : Ctx.rem p.j.e.s = stuff data ++ 0xFF :: m :: tail) (rest : List Bool)
    (hS : BandScan (asCode t) (decide (p.q.sh = 0)) p.q.sl
      ((List.range ((c.x + 7) / 8 * ((c.y + 7) / 8))).map fun i => band (C (i % ((c.x + 7) / 8)) (i / ((c.x + 7) / 8))) p.q.ss p.q.se) (bitsOf data) rest) :
    ∃ p' cf', prog_entropy 1 p = .ok (some p') ∧ p' = { p with j := { p.j with e := p'.j.e, comps := p'.j.comps, todo := p'.j.todo }, coef := p.coef.set n cf', eob := p'.eob } ∧ EntOk m tail p'.j.e rest ∧
      (∀ x < (c.x + 7) / 8, ∀ y < (c.y + 7) / 8, ∀ k, p.q.ss ≤ k → k ≤ p.q.se → cf'[64 * (x + y * (c.w2 / 8)) + zagOf k]? = some (some (coarse p.q.sl (C x y k)))) ∧
      ∀ a, (∀ x < (c.x + 7) / 8, ∀ y < (c.y + 7) / 8, ∀ k, p.q.ss ≤ k → k ≤ p.q.se → a ≠ 64 * (x + y * (c.w2 / 8)) + zagOf k) → cf'[a]? = cf[a]? := by
  obtain ⟨bw, hbw⟩ : ∃ bw, bw = (c.x + 7) / 8 := ⟨_, rfl⟩
  obtain ⟨bh, hbh⟩ : ∃ bh, bh = (c.y + 7) / 8 := ⟨_, rfl⟩
  rw [← hbw, ← hbh] at hbig hbef hS ⊢
  have hb0 : 0 < bw := by omega
  have hbW : bw ≤ c.w2 / 8 := by omega
  have idx : ∀ x < bw, ∀ y < bh, y * bw + x < bw * bh ∧ (y * bw + x) % bw = x ∧ (y * bw + x) / bw = y := by
    intro x hx y hy
    refine ⟨?_, ?_, ?_⟩
    · have := Nat.mul_le_mul_right bw (show y + 1 ≤ bh by omega)
      rw [Nat.mul_comm bw bh]
      rw [Nat.succ_mul] at this
      omega
    · rw [Nat.add_comm, Nat.add_mul_mod_self_right, Nat.mod_eq_of_lt hx]
    · rw [Nat.add_comm, Nat.add_mul_div_right _ _ hb0, Nat.div_eq_of_lt hx, Nat.zero_add]
  have inv : ∀ i < bw * bh, i % bw < bw ∧ i / bw < bh := fun i hi => ⟨Nat.mod_lt _ hb0, (Nat.div_lt_iff_lt_mul hb0).2 (by rw [Nat.mul_comm]; exact hi)⟩
  obtain ⟨p0, hp0⟩ : ∃ p0, p0 = ({ p with j := j_reset p.j, eob := 0 } : Prog) := ⟨_, rfl⟩
  have hc0 : p0.j.comps[n]? = some { c with pred := 0 } := by
    rw [hp0]
    show (p.j.comps.map _)[n]? = _
    rw [List.getElem?_map, hc]
    rfl
  have ho0 : p0.j.order[0]? = some n := by rw [hp0]; exact hord
  have hq0 : p0.q = p.q := by rw [hp0]
  have hcf0 : p0.coef[n]? = some cf := by rw [hp0]; exact hcf
  have ht0 : p0.j.todo = 0x7FFFFFFF := by
    rw [hp0]
    show (if p.j.restart ≠ 0 then _ else _) = _
    rw [if_neg (by simp [hrs])]
  have hE0 : EntOk m tail p0.j.e (bitsOf data) := by
    rw [hp0]
    exact ⟨hctx, [], data, 0, rfl, by simp, rfl, by simp, Or.inl ⟨rfl, rfl, hdata, rfl⟩⟩
  have hstart : BandSt m tail p0 n cf bw (c.w2 / 8) (bw * bh) (if decide (p0.q.sh = 0) then FirstBlock (asCode t) p0.q.sl else RefinedBlock (asCode t) p0.q.sl) (fun i => C (i % bw) (i / bw)) rest 0 p0 := by
    refine ⟨⟨cf, ?_, fun i hi k hk1 hk2 => ?_, fun _ _ => rfl⟩, bitsOf data, hE0, ?_⟩
    · rw [set_same hcf0]
      simp
    · rw [if_neg (by omega), hq0]
      rw [hq0] at hk1 hk2
      exact hbef _ (inv i hi).1 _ (inv i hi).2 k hk1 hk2
    · rw [hq0, List.drop_zero, show p0.eob = 0 by rw [hp0]]
      exact hS
  have hrun : Ok (progOne p0) fun st => ∃ p', st = .more p' ∧
      BandSt m tail p0 n cf bw (c.w2 / 8) (bw * bh) (if decide (p0.q.sh = 0) then FirstBlock (asCode t) p0.q.sl else RefinedBlock (asCode t) p0.q.sl) (fun i => C (i % bw) (i / bw)) rest (bh * bw) p' := by
    unfold progOne
    rw [rdIn_ok ho0, ok_bind, rdIn_ok hc0, ok_bind]
    dsimp only
    rw [← hbw, ← hbh]
    refine forN_ok (fun y st => ∃ p', st = ProgOut.more p' ∧
      BandSt m tail p0 n cf bw (c.w2 / 8) (bw * bh) (if decide (p0.q.sh = 0) then FirstBlock (asCode t) p0.q.sl else RefinedBlock (asCode t) p0.q.sl) (fun i => C (i % bw) (i / bw)) rest (y * bw) p')
      ⟨p0, rfl, by rw [Nat.zero_mul]; exact hstart⟩ ?_
    rintro y hy st hst
    have hrow := forN_ok (n := bw) (s := st) (body := fun x st => progNext (fun p => do
      match ← (if p.q.ss = 0 then progDcAt n x y p else progAcAt n x y p) with
      | none => pure .fail
      | some p => progAfter p) st) (fun x st => ∃ p', st = ProgOut.more p' ∧
      BandSt m tail p0 n cf bw (c.w2 / 8) (bw * bh) (if decide (p0.q.sh = 0) then FirstBlock (asCode t) p0.q.sl else RefinedBlock (asCode t) p0.q.sl) (fun i => C (i % bw) (i / bw)) rest (y * bw + x) p')
      hst ?_
    · rw [Nat.succ_mul]
      exact hrow
    · rintro x hx st ⟨p1, rfl, hp1⟩
      obtain ⟨p2, p3, g1, g2, g3⟩ := band_step (c := { c with pred := 0 }) hm hm' hc0 hcf0 (by rw [hq0]; exact h1) (by rw [hq0]; exact h2) (by rw [hq0]; exact h63) (h := h) (fac := fac) (by rw [hp0]; exact hh) (by rw [hp0]; exact hf)
        ht hfo (fun i k => hC _ _ k) hb0 hbW (by rw [ht0]; exact_mod_cast hbig) (by rw [ht0]) hx (idx x hx y hy).1 hp1
      have hpq : p1.q = p0.q := by
        obtain ⟨⟨_, e, _⟩, _⟩ := hp1
        rw [e]
      refine ⟨.more p3, ?_, p3, rfl, g3⟩
      unfold progNext
      dsimp only
      rw [if_neg (by rw [hpq, hq0]; omega), g1, ok_bind]
      exact g2
  obtain ⟨st, g1, p', rfl, ⟨cf', heq, hcells, hout⟩, b, hE, hSc⟩ := hrun
  rw [List.drop_eq_nil_of_le (by rw [List.length_map, List.length_range, Nat.mul_comm])] at hSc
  obtain rfl : b = rest := hSc
  refine ⟨p', cf', ?_, ?_, hE, fun x hx y hy k hk1 hk2 => ?_, fun a ha => hout a fun i hi k hk1 hk2 => ?_⟩
  · unfold prog_entropy
    rw [← hp0]
    show (do
      match ← progOne p0 with
      | .fail => pure none
      | .stop p => pure (some p)
      | .more p => pure (some p)) = _
    rw [g1, ok_bind]
    rfl
  · have hk : p'.j.comps = p0.j.comps := by rw [heq]
    rw [hk]
    rw [heq, hp0]
    rfl
  · have hi := idx x hx y hy
    have := hcells _ hi.1 k (by rw [hq0]; exact hk1) (by rw [hq0]; exact hk2)
    rw [if_pos (by rw [Nat.mul_comm bh]; exact hi.1)] at this
    unfold place at this
    rw [hi.2.1, hi.2.2, hq0] at this
    exact this
  · rw [hq0] at hk1 hk2
    exact ha _ (inv i hi).1 _ (inv i hi).2 k hk1 hk2

/-! ### An example -/

/-- A code with three words: 00 and 01 for coefficients of one and two bits, 10 for the end of a block. -/
def tinyCode : List ((Nat × Nat) × Nat) := [((0, 2), 1), ((1, 2), 2), ((2, 2), 0)]

/-- 5, -2 and three zeros without their low bit: 01 10, 00 0, 10. -/
example : BandScan (asCode tinyCode) true 1 [[5, -2, 0, 0, 0]] [false, true, true, false, false, false, false, true, false, true] [true] :=
  ⟨0, [true], First.value (seg := []) (s := 2) (x := 2) (b1 := [true, false, false, false, false, true, false, true]) (b' := [false, false, false, true, false, true]) rfl (by decide) (by decide) rfl (by decide) (by simp)
    (First.value (seg := []) (s := 1) (x := 0) (b1 := [false, true, false, true]) (b' := [true, false, true]) rfl (by decide) (by decide) rfl (by decide) (by simp)
      (First.ended (r := 0) (x := 0) (b' := [true]) (by decide) rfl rfl (by decide) (by decide))), rfl⟩

/-- Their low bits: 10, then 1 and 0. -/
example : BandScan (asCode tinyCode) false 0 [[5, -2, 0, 0, 0]] [true, false, true, false, true] [true] :=
  ⟨0, [true], Refined.ended (r := 0) (x := 0) (b' := [true, false, true]) (by decide) rfl rfl (by decide) (by decide), rfl⟩

/-- With a third coefficient 1, which has not been coded before: 00, its sign 1, the corrections 1 and 0, and the end of the block. -/
example : BandScan (asCode tinyCode) false 0 [[5, -2, 1, 0, 0]] [false, false, true, true, false, true, false] [] :=
  ⟨0, [], Refined.fresh (seg := [5, -2]) (b' := [true, false]) rfl (by decide) (by decide) (by decide)
    (Refined.ended (r := 0) (x := 0) (b' := []) (by decide) rfl rfl (by decide) (by decide)), rfl⟩

end FlatCV.Props
