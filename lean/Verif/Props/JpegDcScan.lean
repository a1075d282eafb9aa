/-
C146: whole scans of the first coefficients of progressive JPEG files, from the bytes of the scan: interleaved ones and those of one component.
-/
import Verif.Lemmas.JpegDcLoop

namespace FlatCV.Props
open Model Jpg

variable {m : UInt8} {tail : List UInt8}

/-- The state at the start of a scan. -/
theorem dc_start (p : Prog) (N : Nat) (c : Nat → JComp) (hc : ∀ a < N, p.j.comps[a]? = some (c a)) (td : Nat → List ((Nat × Nat) × Nat)) (cf : Nat → Cells Int) (hcf : ∀ a < N, p.coef[a]? = some (cf a))
    (C : Nat → Nat → Nat → Int) (all : List (Nat × Nat × Nat)) (hbef : ∀ a < N, ∀ x y, (a, x, y) ∈ all → BeforeDc p.q (cf a) (64 * (x + y * ((c a).w2 / 8))) (C a x y))
    (hctx : CtxOk p.j.e.s) (data : List UInt8) (hdata : Ctx.rem p.j.e.s = stuff data ++ 0xFF :: m :: tail) (rest : List Bool)
    (hS : DcScan (fun a => asCode (td a)) (decide (p.q.sh = 0)) p.q.sl C all (fun _ => 0) (bitsOf data) rest) :
    DcSt m tail { p with j := j_reset p.j, eob := 0 } N c td cf C all rest all { p with j := j_reset p.j, eob := 0 } := by
  refine ⟨rfl, ⟨fun _ => 0, bitsOf data, fun a ha => ⟨?_, by norm_num⟩, ⟨hctx, [], data, 0, rfl, by simp, rfl, by simp, Or.inl ⟨rfl, rfl, hdata, rfl⟩⟩, hS⟩,
    [], rfl, fun a ha => ⟨cf a, hcf a ha, rfl, fun x y h => absurd h (by simp), hbef a ha, fun _ _ => rfl⟩⟩
  show (p.j.comps.map _)[a]? = _
  rw [List.getElem?_map, hc a ha]
  rfl

/-- C146: an interleaved scan of first coefficients, in a file without restart intervals: `scanN` components, in the order `ord`, with their MCUs as in T.81, A.2.3. -/
theorem dc_scan_interleaved (hm : m ≠ 0) (hm' : m ≠ 0xFF) (p : Prog) (N scanN : Nat) (ord : Nat → Nat) (hord : ∀ k < scanN, p.j.order[k]? = some (ord k) ∧ ord k < N) (h2 : 2 ≤ scanN)
    (hinj : ∀ k < scanN, ∀ k' < scanN, ord k = ord k' → k = k') (c : Nat → JComp) (hc : ∀ a < N, p.j.comps[a]? = some (c a)) (hv : ∀ a < N, 1 ≤ (c a).h ∧ 1 ≤ (c a).v)
    (hw : ∀ a < N, (c a).w2 = p.j.mcuX * (c a).h * 8) (td : Nat → List ((Nat × Nat) × Nat)) (ht : ∀ a < N, ∃ h, p.j.huffDc[(c a).hd]? = some h ∧ tableOk h (td a) = true)
    (cf : Nat → Cells Int) (hcf : ∀ a < N, p.coef[a]? = some (cf a)) (hlen : ∀ a < N, (c a).w2 * (p.j.mcuY * (c a).v * 8) ≤ (cf a).length) (hrs : p.j.restart = 0) (hse : p.q.se = 0)
    (C : Nat → Nat → Nat → Int) (hC : ∀ a x y, |coarseDc p.q.sl (C a x y)| ≤ 32767)
    (hbig : (interleaved ((List.range scanN).map ord) (fun a => (c a).h) (fun a => (c a).v) p.j.mcuX p.j.mcuY).length < 2147483647)
    (hbef : ∀ a < N, ∀ x y, (a, x, y) ∈ interleaved ((List.range scanN).map ord) (fun a => (c a).h) (fun a => (c a).v) p.j.mcuX p.j.mcuY →
      BeforeDc p.q (cf a) (64 * (x + y * ((c a).w2 / 8))) (C a x y))
    (hctx : CtxOk p.j.e.s) (data : List UInt8) (hdata : Ctx.rem p.j.e.s = stuff data ++ 0xFF :: m :: tail) (rest : List Bool)
    (hS : DcScan (fun a => asCode (td a)) (decide (p.q.sh = 0)) p.q.sl C (interleaved ((List.range scanN).map ord) (fun a => (c a).h) (fun a => (c a).v) p.j.mcuX p.j.mcuY) (fun _ => 0) (bitsOf data) rest) :
    ∃ p', prog_entropy scanN p = .ok (some p') ∧ EntOk m tail p'.j.e rest ∧ ∀ a < N, ∃ cf', p'.coef[a]? = some cf' ∧
      (∀ x y, (a, x, y) ∈ interleaved ((List.range scanN).map ord) (fun a => (c a).h) (fun a => (c a).v) p.j.mcuX p.j.mcuY → AfterDc p.q cf' (64 * (x + y * ((c a).w2 / 8))) (C a x y)) ∧
      ∀ i, (∀ x y, (a, x, y) ∈ interleaved ((List.range scanN).map ord) (fun a => (c a).h) (fun a => (c a).v) p.j.mcuX p.j.mcuY → ∀ z < dcWidth p.q, i ≠ 64 * (x + y * ((c a).w2 / 8)) + z) → cf'[i]? = (cf a)[i]? := by
  obtain ⟨all, hall⟩ : ∃ all, all = interleaved ((List.range scanN).map ord) (fun a => (c a).h) (fun a => (c a).v) p.j.mcuX p.j.mcuY := ⟨_, rfl⟩
  rw [← hall] at hbig hbef hS ⊢
  have hst := dc_start p N c hc td cf hcf C all hbef hctx data hdata rest hS
  have hnd : ((List.range scanN).map ord).Nodup := by
    rw [List.nodup_map_iff_inj_on List.nodup_range]
    intro k hk k' hk' e
    exact hinj k (List.mem_range.1 hk) k' (List.mem_range.1 hk') e
  have P : DcPar { p with j := j_reset p.j, eob := 0 } N c td (fun a => (cf a).length) C all := by
    refine ⟨hse, ht, hC, by rw [hall]; exact interleaved_nodup hnd _ _ _ _, fun a x y h => ?_⟩
    rw [hall] at h
    obtain ⟨g1, g2, g3⟩ := interleaved_mem h
    obtain ⟨k, hk, rfl⟩ := List.mem_map.1 g1
    have ha := (hord k (List.mem_range.1 hk)).2
    have hW : (c (ord k)).w2 / 8 = p.j.mcuX * (c (ord k)).h := by rw [hw _ ha]; omega
    refine ⟨ha, by rw [hW]; exact g2, le_trans ?_ (hlen _ ha)⟩
    rw [hW, hw _ ha]
    generalize p.j.mcuX * (c (ord k)).h = W at g2
    generalize p.j.mcuY * (c (ord k)).v = H at g3
    have := Nat.mul_le_mul_right W (show y + 1 ≤ H from g3)
    rw [Nat.add_mul, Nat.one_mul] at this
    have e : W * 8 * (H * 8) = 64 * (H * W) := by ring
    rw [e]
    omega
  have hrun : Ok (forN p.j.mcuY (ProgOut.more { p with j := j_reset p.j, eob := 0 }) fun jj st => forN p.j.mcuX st fun i st => progNext (progMCU scanN i jj) st) fun st =>
      ∃ p', st = .more p' ∧ DcSt m tail { p with j := j_reset p.j, eob := 0 } N c td cf C all rest [] p' ∧ p'.j.todo ≤ 2147483647 ∧ (([] : List (Nat × Nat × Nat)).length : Int) < p'.j.todo := by
    refine forN_parts (fun l st => ∃ p', st = ProgOut.more p' ∧ DcSt m tail { p with j := j_reset p.j, eob := 0 } N c td cf C all rest l p' ∧ p'.j.todo ≤ 2147483647 ∧ (l.length : Int) < p'.j.todo)
      (fun j => (List.range p.j.mcuX).flatMap fun i => ((List.range scanN).map ord).flatMap fun n => (List.range (c n).v).flatMap fun y => (List.range (c n).h).map fun x => (n, i * (c n).h + x, j * (c n).v + y))
      _ _ ?_ [] _ ⟨_, rfl, ?_, ?_⟩
    · intro jj _ r st hst
      refine forN_parts (fun l st => ∃ p', st = ProgOut.more p' ∧ DcSt m tail { p with j := j_reset p.j, eob := 0 } N c td cf C all rest l p' ∧ p'.j.todo ≤ 2147483647 ∧ (l.length : Int) < p'.j.todo) _ _ _ ?_ r _ hst
      rintro i _ r st ⟨p1, rfl, g1, g2, g3⟩
      exact progMCU_ok hm hm' P hord (by omega) hv i jj g2 g3 g1
    · rw [List.append_nil]
      have e : ((List.range p.j.mcuY).flatMap fun j => (List.range p.j.mcuX).flatMap fun i => ((List.range scanN).map ord).flatMap fun n => (List.range (c n).v).flatMap fun y =>
          (List.range (c n).h).map fun x => (n, i * (c n).h + x, j * (c n).v + y)) = all := hall.symm
      rw [e]
      exact hst
    · rw [List.append_nil]
      have e : ((List.range p.j.mcuY).flatMap fun j => (List.range p.j.mcuX).flatMap fun i => ((List.range scanN).map ord).flatMap fun n => (List.range (c n).v).flatMap fun y =>
          (List.range (c n).h).map fun x => (n, i * (c n).h + x, j * (c n).v + y)) = all := hall.symm
      rw [e]
      have ht0 : (j_reset p.j).todo = 0x7FFFFFFF := by
        show (if p.j.restart ≠ 0 then _ else _) = _
        rw [if_neg (by simp [hrs])]
      dsimp only
      rw [ht0]
      exact ⟨by norm_num, by omega⟩
  obtain ⟨_, g1, p', rfl, ⟨-, ⟨pr, b, -, hE, hb⟩, done, hd, hcells⟩, -⟩ := hrun
  obtain rfl : b = rest := hb
  rw [List.append_nil] at hd
  subst hd
  refine ⟨p', ?_, hE, fun a ha => ?_⟩
  · unfold prog_entropy
    show (do
      match ← (if scanN = 1 then progOne { p with j := j_reset p.j, eob := 0 } else forN p.j.mcuY (ProgOut.more { p with j := j_reset p.j, eob := 0 }) fun jj st =>
        forN p.j.mcuX st fun i st => progNext (progMCU scanN i jj) st) with
      | .fail => pure none
      | .stop p => pure (some p)
      | .more p => pure (some p)) = _
    rw [if_neg (by omega), g1, ok_bind]
    rfl
  · obtain ⟨cf', w1, w2, w3, w4, w5⟩ := hcells a ha
    exact ⟨cf', w1, w3, w5⟩

/-- C146: a scan of the first coefficients of one component `n`. -/
theorem dc_scan_one (hm : m ≠ 0) (hm' : m ≠ 0xFF) (p : Prog) (N n : Nat) (hn : n < N) (hord : p.j.order[0]? = some n) (c : Nat → JComp) (hc : ∀ a < N, p.j.comps[a]? = some (c a))
    (hw : ((c n).x + 7) / 8 * 8 ≤ (c n).w2) (td : Nat → List ((Nat × Nat) × Nat)) (ht : ∀ a < N, ∃ h, p.j.huffDc[(c a).hd]? = some h ∧ tableOk h (td a) = true)
    (cf : Nat → Cells Int) (hcf : ∀ a < N, p.coef[a]? = some (cf a)) (hlen : (c n).w2 / 8 * (((c n).y + 7) / 8) * 64 ≤ (cf n).length) (hrs : p.j.restart = 0) (hss : p.q.ss = 0) (hse : p.q.se = 0)
    (C : Nat → Nat → Nat → Int) (hC : ∀ a x y, |coarseDc p.q.sl (C a x y)| ≤ 32767)
    (hbig : (rowByRow n (((c n).x + 7) / 8) (((c n).y + 7) / 8)).length < 2147483647)
    (hbef : ∀ x < ((c n).x + 7) / 8, ∀ y < ((c n).y + 7) / 8, BeforeDc p.q (cf n) (64 * (x + y * ((c n).w2 / 8))) (C n x y))
    (hctx : CtxOk p.j.e.s) (data : List UInt8) (hdata : Ctx.rem p.j.e.s = stuff data ++ 0xFF :: m :: tail) (rest : List Bool)
    (hS : DcScan (fun a => asCode (td a)) (decide (p.q.sh = 0)) p.q.sl C (rowByRow n (((c n).x + 7) / 8) (((c n).y + 7) / 8)) (fun _ => 0) (bitsOf data) rest) :
    ∃ p' cf', prog_entropy 1 p = .ok (some p') ∧ EntOk m tail p'.j.e rest ∧ p'.coef[n]? = some cf' ∧
      (∀ x < ((c n).x + 7) / 8, ∀ y < ((c n).y + 7) / 8, AfterDc p.q cf' (64 * (x + y * ((c n).w2 / 8))) (C n x y)) ∧
      ∀ i, (∀ x < ((c n).x + 7) / 8, ∀ y < ((c n).y + 7) / 8, ∀ z < dcWidth p.q, i ≠ 64 * (x + y * ((c n).w2 / 8)) + z) → cf'[i]? = (cf n)[i]? := by
  obtain ⟨all, hall⟩ : ∃ all, all = rowByRow n (((c n).x + 7) / 8) (((c n).y + 7) / 8) := ⟨_, rfl⟩
  rw [← hall] at hbig hS
  have hmem : ∀ a x y, (a, x, y) ∈ all ↔ a = n ∧ x < ((c n).x + 7) / 8 ∧ y < ((c n).y + 7) / 8 := by rw [hall]; intro a x y; exact rowByRow_mem
  have hst := dc_start p N c hc td cf hcf C all (fun a _ x y h => by obtain ⟨rfl, h1, h2⟩ := (hmem a x y).1 h; exact hbef x h1 y h2) hctx data hdata rest hS
  have P : DcPar { p with j := j_reset p.j, eob := 0 } N c td (fun a => (cf a).length) C all := by
    refine ⟨hse, ht, hC, by rw [hall]; exact rowByRow_nodup _ _ _, fun a x y h => ?_⟩
    obtain ⟨rfl, g2, g3⟩ := (hmem a x y).1 h
    refine ⟨hn, by omega, le_trans ?_ hlen⟩
    have hx : x < (c a).w2 / 8 := by omega
    generalize (c a).w2 / 8 = W at hx
    generalize ((c a).y + 7) / 8 = H at g3
    have := Nat.mul_le_mul_right W (show y + 1 ≤ H from g3)
    rw [Nat.add_mul, Nat.one_mul, Nat.mul_comm H W] at this
    omega
  have hrun : Ok (progOne { p with j := j_reset p.j, eob := 0 }) fun st =>
      ∃ p', st = .more p' ∧ DcSt m tail { p with j := j_reset p.j, eob := 0 } N c td cf C all rest [] p' ∧ p'.j.todo ≤ 2147483647 ∧ (([] : List (Nat × Nat × Nat)).length : Int) < p'.j.todo := by
    obtain ⟨pr, -, hcomps, -⟩ := hst.bits
    unfold progOne
    rw [rdIn_ok (show ({ p with j := j_reset p.j, eob := 0 } : Prog).j.order[0]? = some n from hord), ok_bind, rdIn_ok (hcomps n hn).1, ok_bind]
    dsimp only
    refine forN_parts (fun l st => ∃ p', st = ProgOut.more p' ∧ DcSt m tail { p with j := j_reset p.j, eob := 0 } N c td cf C all rest l p' ∧ p'.j.todo ≤ 2147483647 ∧ (l.length : Int) < p'.j.todo)
      (fun y => (List.range (((c n).x + 7) / 8)).map fun x => (n, x, y)) _ _ ?_ [] _ ⟨_, rfl, ?_, ?_⟩
    · intro y _ r st hst
      rw [← List.flatMap_singleton' ((List.range (((c n).x + 7) / 8)).map _), List.flatMap_map] at hst
      refine forN_parts (fun l st => ∃ p', st = ProgOut.more p' ∧ DcSt m tail { p with j := j_reset p.j, eob := 0 } N c td cf C all rest l p' ∧ p'.j.todo ≤ 2147483647 ∧ (l.length : Int) < p'.j.todo) _ _ _ ?_ r _ hst
      rintro x _ r st ⟨p1, rfl, g1, g2, g3⟩
      obtain ⟨p2, w1, w2, w3⟩ := dc_step hm hm' P g1
      rw [List.cons_append, List.nil_append, List.length_cons] at g3
      push_cast at g3
      obtain ⟨p3, v1, v2, v3⟩ := progAfter_ok (by omega) (by omega) w2
      have hq : p1.q = p.q := by rw [g1.same]
      refine ⟨.more p3, ?_, p3, rfl, v2, by omega, by omega⟩
      unfold progNext
      dsimp only
      rw [if_pos (by rw [hq]; exact hss), w1, ok_bind]
      exact v1
    · rw [List.append_nil]
      have e : ((List.range (((c n).y + 7) / 8)).flatMap fun y => (List.range (((c n).x + 7) / 8)).map fun x => (n, x, y)) = all := hall.symm
      rw [e]
      exact hst
    · rw [List.append_nil]
      have e : ((List.range (((c n).y + 7) / 8)).flatMap fun y => (List.range (((c n).x + 7) / 8)).map fun x => (n, x, y)) = all := hall.symm
      rw [e]
      have ht0 : (j_reset p.j).todo = 0x7FFFFFFF := by
        show (if p.j.restart ≠ 0 then _ else _) = _
        rw [if_neg (by simp [hrs])]
      dsimp only
      rw [ht0]
      exact ⟨by norm_num, by omega⟩
  obtain ⟨_, g1, p', rfl, ⟨-, ⟨pr, b, -, hE, hb⟩, done, hd, hcells⟩, -⟩ := hrun
  obtain rfl : b = rest := hb
  rw [List.append_nil] at hd
  subst hd
  obtain ⟨cf', w1, w2, w3, w4, w5⟩ := hcells n hn
  refine ⟨p', cf', ?_, hE, w1, fun x hx y hy => w3 x y ((hmem n x y).2 ⟨rfl, hx, hy⟩), fun i hi => w5 i fun x y h z hz => ?_⟩
  · unfold prog_entropy
    show (do
      match ← progOne { p with j := j_reset p.j, eob := 0 } with
      | .fail => pure none
      | .stop p => pure (some p)
      | .more p => pure (some p)) = _
    rw [g1, ok_bind]
    rfl
  · obtain ⟨-, h1, h2⟩ := (hmem n x y).1 h
    exact hi x h1 y h2 z hz

/-! ### An example -/

/-- A code with two words: 0 for no difference and 1 for one of two bits. -/
def twoWords : List ((Nat × Nat) × Nat) := [((0, 1), 0), ((1, 1), 2)]

/-- Two components with one block each in two MCUs; the first coefficients, without their low bit, are 3, -2, 3 and 0. -/
example : DcScan (fun _ => asCode twoWords) true 1 (fun a x _ => if a = 0 then 7 else if x = 0 then -3 else 1) (interleaved [0, 1] (fun _ => 1) (fun _ => 1) 2 1) (fun _ => 0)
    [true, true, true, true, false, true, false, true, true, false] [] :=
  ⟨3, _, ⟨⟨2, 3, [true, true, true, false, true, false, true, true, false], rfl, by decide, rfl, by decide⟩, by decide⟩,
    -2, _, ⟨⟨2, 1, [false, true, false, true, true, false], rfl, by decide, rfl, by decide⟩, by decide⟩,
    3, _, ⟨⟨0, 0, [true, true, false], rfl, by decide, rfl, by decide⟩, by decide⟩,
    0, _, ⟨⟨2, 2, [true, false], rfl, by decide, rfl, by decide⟩, by decide⟩, rfl⟩

/-- Their low bits. -/
example : DcScan (fun _ => asCode twoWords) false 0 (fun a x _ => if a = 0 then 7 else if x = 0 then -3 else 1) (interleaved [0, 1] (fun _ => 1) (fun _ => 1) 2 1) (fun _ => 0)
    [true, true, true, true, false] [false] :=
  ⟨0, _, ⟨rfl, rfl⟩, 0, _, ⟨rfl, rfl⟩, 0, _, ⟨rfl, rfl⟩, 0, _, ⟨rfl, rfl⟩, rfl⟩

end FlatCV.Props
