/-
The JPEG decoder: the scan.
-/
import Verif.Lemmas.JpegTables
import Verif.Lemmas.JpegIdct

namespace FlatCV
open Model Jpg

theorem bind_of_eq {α β : Type} {a : α} {x : CM α} (h : x = .ok a) (k : α → CM β) : (x >>= k) = k a := by rw [h]; rfl

/-- Two nested loops are one loop. -/
theorem forN_flat {σ : Type} (a b : Nat) (s : σ) (f : Nat → Nat → σ → CM σ) :
    forN a s (fun y st => forN b st fun x st => f y x st) = forN (a * b) s fun t st => f (t / b) (t % b) st := by
  rcases Nat.eq_zero_or_pos b with rfl | hb
  · rw [Nat.mul_zero]
    induction a with
    | zero => rfl
    | succ a ih => rw [forN_succ, ih]; rfl
  · induction a with
    | zero => rw [Nat.zero_mul]; rfl
    | succ a ih =>
      rw [forN_succ, ih, Nat.succ_mul]
      have gen : ∀ x ≤ b, (forN (a * b) s (fun t st => f (t / b) (t % b) st) >>= fun st => forN x st fun x st => f a x st) =
          forN (a * b + x) s fun t st => f (t / b) (t % b) st := by
        intro x
        induction x with
        | zero => intro _; exact bind_pure _
        | succ x ihx =>
          intro hx
          rw [← Nat.add_assoc, forN_succ, ← ihx (by omega), bind_assoc]
          congr 1
          funext st
          rw [forN_succ]
          congr 1
          funext st'
          rw [show (a * b + x) / b = a by rw [Nat.mul_comm, Nat.mul_add_div hb, Nat.div_eq_of_lt (by omega), Nat.add_zero],
            show (a * b + x) % b = x by rw [Nat.mul_comm, Nat.mul_add_mod, Nat.mod_eq_of_lt (by omega)]]
      exact gen b le_rfl

/-! ### One block -/

/-- What the decoder knows of a component: its codes, its steps, its sampling factors, the width of its plane. -/
structure CU where
  td : List ((Nat × Nat) × Nat)
  ta : List ((Nat × Nat) × Nat)
  dq : List Nat
  h : Nat
  v : Nat
  w2 : Nat
  len : Nat

/-- The samples of the block in row `bi` and column `bj`. -/
def BlockCells (cells : Cells UInt8) (w2 bi bj : Nat) (dq : List Nat) (l : List Int) : Prop :=
  ∃ data, Zd dq data l ∧ ∀ r < 8, ∀ c < 8, cells[w2 * (bi * 8) + bj * 8 + r * w2 + c]? = some (some (stbClamp (idctV (fun q => data.getD q 0) r c)))

/-- Tables of a component. -/
structure CompTabs (j : Jst) (c : JComp) (u : CU) : Prop where
  dc : ∃ h, j.huffDc[c.hd]? = some h ∧ tableOk h u.td = true
  ac : ∃ h f, j.huffAc[c.ha]? = some h ∧ tableOk h u.ta = true ∧ j.fastAc[c.ha]? = some f ∧ facOk f h u.ta = true
  dq : j.dequant[c.tq]? = some u.dq
  small : ∀ e ∈ u.td, e.2 ≤ 15
  ldq : u.dq.length = 64
  dq1 : 1 ≤ u.dq.getD 0 0
  hh : c.h = u.h
  vv : c.v = u.v
  ww : c.w2 = u.w2
  ll : c.data.length = u.len

/-- A component with the part that a scan changes taken away. -/
def JComp.strip (c : JComp) : JComp := { c with pred := 0, data := [] }

/-- Only the part that a scan changes is different. -/
structure SameButScan (j j' : Jst) : Prop where
  rest : j' = { j with e := j'.e, comps := j'.comps, todo := j'.todo }
  comps : j'.comps.map JComp.strip = j.comps.map JComp.strip
  file : j'.e.s.file = j.e.s.file

theorem SameButScan.refl (j : Jst) : SameButScan j j := ⟨rfl, rfl, rfl⟩

theorem SameButScan.trans {a b c : Jst} (h1 : SameButScan a b) (h2 : SameButScan b c) : SameButScan a c := by
  refine ⟨?_, h2.comps.trans h1.comps, h2.file.trans h1.file⟩
  have e1 := h1.rest
  have e2 := h2.rest
  rw [e1] at e2
  exact e2

/-- The state in a scan: `X` MCUs in a row and `Y` rows; the components, the DC coefficients before, the blocks that have been decoded, and the
bits that are left. -/
structure ScanSt (m : UInt8) (tail : List UInt8) (X Y n : Nat) (U : Nat → CU) (j : Jst) (preds : Nat → Int)
    (D : Nat → Nat → Nat → Option (List Int)) (R : List Bool) : Prop where
  ent : EntOk m tail j.e R
  comps : ∀ k < n, ∃ c, j.comps[k]? = some c ∧ CompTabs j c (U k) ∧ c.pred = preds k ∧ |preds k| ≤ 32767 ∧
    ∀ q t l, q < X * Y → t < (U k).h * (U k).v → D q k t = some l →
      BlockCells c.data (U k).w2 (q / X * (U k).v + t / (U k).h) (q % X * (U k).h + t % (U k).h) (U k).dq l

theorem zagOf_surj : ∀ k < 64, ∃ p < 64, zagOf p = k := by decide +kernel

theorem Zd.bound {dq : List Nat} {data l : List Int} (h : Zd dq data l) (hb : ∀ p < 64, |l.getD p 0 * (dq.getD (zagOf p) 0 : Nat)| ≤ 2300) :
    ∀ k < 64, -2300 ≤ data.getD k 0 ∧ data.getD k 0 ≤ 2300 := by
  intro k hk
  obtain ⟨p, hp, rfl⟩ := zagOf_surj k hk
  rw [h.2 p hp]
  exact abs_le.1 (hb p hp)

/-- Different blocks have no sample in common. -/
theorem blocks_disjoint {w2 bi bj bi' bj' r c r' c' : Nat} (h : bj * 8 + 8 ≤ w2) (h' : bj' * 8 + 8 ≤ w2) (hr : r < 8) (hc : c < 8) (hr' : r' < 8) (hc' : c' < 8)
    (he : w2 * (bi * 8) + bj * 8 + r * w2 + c = w2 * (bi' * 8) + bj' * 8 + r' * w2 + c') : bi = bi' ∧ bj = bj' := by
  have e1 : w2 * (bi * 8) + bj * 8 + r * w2 + c = w2 * (bi * 8 + r) + (bj * 8 + c) := by ring
  have e2 : w2 * (bi' * 8) + bj' * 8 + r' * w2 + c' = w2 * (bi' * 8 + r') + (bj' * 8 + c') := by ring
  rw [e1, e2] at he
  have hw : 0 < w2 := by omega
  have d1 : bi * 8 + r = bi' * 8 + r' := by
    have := congrArg (· / w2) he
    rwa [Nat.mul_add_div hw, Nat.mul_add_div hw, Nat.div_eq_of_lt (by omega), Nat.div_eq_of_lt (by omega), Nat.add_zero, Nat.add_zero] at this
  have d2 : bj * 8 + c = bj' * 8 + c' := by
    rw [d1] at he
    omega
  omega

theorem scanBlock_ok {m : UInt8} {tail : List UInt8} {X Y n : Nat} {U : Nat → CU} (hm : m ≠ 0) (hm' : m ≠ 0xFF)
    (hw : ∀ k < n, (U k).w2 = X * (U k).h * 8) (hlen : ∀ k < n, X * (U k).h * 8 * (Y * (U k).v * 8) ≤ (U k).len)
    {j : Jst} {preds : Nat → Int} {D : Nat → Nat → Nat → Option (List Int)} {R rest : List Bool} (hj : ScanSt m tail X Y n U j preds D R)
    {k : Nat} (hk : k < n) {q t : Nat} (hq : q < X * Y) (ht : t < (U k).h * (U k).v) {l : List Int}
    (hd : decodeBlock (asCode (U k).td) (asCode (U k).ta) (preds k) R = some (l, rest))
    (hb : ∀ p < 64, |l.getD p 0 * ((U k).dq.getD (zagOf p) 0 : Nat)| ≤ 2300) :
    ∃ j', scanBlock k ((q % X * (U k).h + t % (U k).h) * 8) ((q / X * (U k).v + t / (U k).h) * 8) j = .ok (some j') ∧ SameButScan j j' ∧ j'.todo = j.todo ∧
      ScanSt m tail X Y n U j' (fun k' => if k' = k then l.getD 0 0 else preds k')
        (fun q' k' t' => if q' = q ∧ k' = k ∧ t' = t then some l else D q' k' t') rest := by
  obtain ⟨c, hc, T, hpred, hpb, hblk⟩ := hj.comps k hk
  obtain ⟨hdc, h1, h2⟩ := T.dc
  obtain ⟨hac, fac, h3, h4, h5, h6⟩ := T.ac
  obtain ⟨data, e', e1, e2, e3, e4, e5⟩ := decode_block_ok hm hm' h2 T.small h4 h6 T.ldq T.dq1 hj.ent hpb hd (fun p hp => (hb p hp).trans (by norm_num))
  have hX : 0 < X := Nat.pos_of_ne_zero fun h => by subst h; omega
  have hh : 0 < (U k).h := Nat.pos_of_ne_zero fun h => by rw [h] at ht; omega
  have hqX : q % X < X := Nat.mod_lt _ hX
  have hqY : q / X < Y := by rw [Nat.div_lt_iff_lt_mul hX, Nat.mul_comm]; exact hq
  have htx : t % (U k).h < (U k).h := Nat.mod_lt _ hh
  have hty : t / (U k).h < (U k).v := by rw [Nat.div_lt_iff_lt_mul hh, Nat.mul_comm]; exact ht
  have hbj : ∀ q' t' : Nat, q' < X * Y → t' < (U k).h * (U k).v → (q' % X * (U k).h + t' % (U k).h) * 8 + 8 ≤ (U k).w2 := by
    intro q' t' _ _
    rw [hw k hk]
    have a1 : q' % X + 1 ≤ X := Nat.mod_lt _ hX
    have a2 : t' % (U k).h < (U k).h := Nat.mod_lt _ hh
    have a3 := Nat.mul_le_mul_right (U k).h a1
    rw [Nat.add_mul, Nat.one_mul] at a3
    omega
  have hbi : q / X * (U k).v + t / (U k).h + 1 ≤ Y * (U k).v := by
    have a3 := Nat.mul_le_mul_right (U k).v (show q / X + 1 ≤ Y from hqY)
    rw [Nat.add_mul, Nat.one_mul] at a3
    omega
  have hb1 := hbj q t hq ht
  have hin : c.w2 * ((q / X * (U k).v + t / (U k).h) * 8) + (q % X * (U k).h + t % (U k).h) * 8 + 7 * c.w2 + 7 < c.data.length := by
    rw [T.ww, T.ll]
    refine lt_of_lt_of_le ?_ (hlen k hk)
    rw [← hw k hk]
    have := Nat.mul_le_mul_left (U k).w2 (Nat.mul_le_mul_right 8 hbi)
    rw [Nat.add_mul, Nat.mul_add] at this
    omega
  obtain ⟨d', i1, i2, i3, i4⟩ := idct_block_ok e4.1 (e4.bound hb) (out := c.data) (off := c.w2 * ((q / X * (U k).v + t / (U k).h) * 8) + (q % X * (U k).h + t % (U k).h) * 8)
    (stride := c.w2) (by rw [T.ww]; omega) hin
  have hcl : k < j.comps.length := (List.getElem?_eq_some_iff.1 hc).1
  have hce : j.comps[k]'hcl = c := (List.getElem?_eq_some_iff.1 hc).2
  refine ⟨{ j with e := e', comps := j.comps.set k { c with pred := l.getD 0 0, data := d' } }, ?_, ⟨rfl, ?_, e3⟩, rfl, ⟨e2, ?_⟩⟩
  · unfold scanBlock
    rw [rdIn_ok hc, ok_bind, rdIn_ok h1, ok_bind, rdIn_ok h3, ok_bind, rdIn_ok h5, ok_bind, rdIn_ok T.dq, ok_bind, hpred, e1, ok_bind]
    dsimp only
    rw [i1, ok_bind]
    unfold wrIn
    rw [if_pos hcl, ok_bind]
    rfl
  · dsimp only
    rw [List.map_set]
    apply List.ext_getElem?
    intro i
    by_cases hi : i = k
    · subst hi
      rw [List.getElem?_set_self (by rw [List.length_map]; exact hcl), List.getElem?_map, hc]
      rfl
    · rw [List.getElem?_set_ne (Ne.symm hi)]
  · intro k' hk'
    dsimp only
    by_cases hkk : k' = k
    · subst hkk
      refine ⟨_, List.getElem?_set_self hcl, ⟨T.dc, T.ac, T.dq, T.small, T.ldq, T.dq1, T.hh, T.vv, T.ww, i2.trans T.ll⟩, by rw [if_pos rfl], by rw [if_pos rfl]; exact e5, ?_⟩
      intro q' t' l' hq' ht' hD
      by_cases hsame : q' = q ∧ t' = t
      · obtain ⟨rfl, rfl⟩ := hsame
        rw [if_pos ⟨rfl, rfl, rfl⟩, Option.some.injEq] at hD
        subst hD
        refine ⟨data, e4, fun r hr cc hcc => ?_⟩
        rw [← T.ww]
        exact i3 r hr cc hcc
      · rw [if_neg (fun h => hsame ⟨h.1, h.2.2⟩)] at hD
        obtain ⟨data', z1, z2⟩ := hblk q' t' l' hq' ht' hD
        refine ⟨data', z1, fun r hr cc hcc => ?_⟩
        rw [← z2 r hr cc hcc]
        refine i4 _ fun r' hr' cc' hcc' he => hsame ?_
        rw [T.ww] at he
        obtain ⟨b1, b2⟩ := blocks_disjoint (hbj q' t' hq' ht') hb1 hr hcc hr' hcc' he
        have hty' : t' / (U k').h < (U k').v := by rw [Nat.div_lt_iff_lt_mul hh, Nat.mul_comm]; exact ht'
        have htx' : t' % (U k').h < (U k').h := Nat.mod_lt _ hh
        have uniq : ∀ {a b a' b' s : Nat}, b < s → b' < s → a * s + b = a' * s + b' → a = a' ∧ b = b' := by
          intro a b a' b' s hb hb' h
          have hs : 0 < s := by omega
          have d1 : a = a' := by
            have := congrArg (· / s) h
            simp only [Nat.mul_comm _ s] at this
            rwa [Nat.mul_add_div hs, Nat.mul_add_div hs, Nat.div_eq_of_lt hb, Nat.div_eq_of_lt hb', Nat.add_zero, Nat.add_zero] at this
          subst d1
          exact ⟨rfl, by omega⟩
        obtain ⟨u1, u2⟩ := uniq hty' hty b1
        obtain ⟨u3, u4⟩ := uniq htx' htx b2
        constructor
        · rw [← Nat.div_add_mod q' X, ← Nat.div_add_mod q X, u1, u3]
        · rw [← Nat.div_add_mod t' (U k').h, ← Nat.div_add_mod t (U k').h, u2, u4]
    · obtain ⟨c', hc', T', hpred', hpb', hblk'⟩ := hj.comps k' hk'
      refine ⟨c', by rw [List.getElem?_set_ne (Ne.symm hkk)]; exact hc', ⟨T'.dc, T'.ac, T'.dq, T'.small, T'.ldq, T'.dq1, T'.hh, T'.vv, T'.ww, T'.ll⟩,
        by rw [if_neg hkk]; exact hpred', by rw [if_neg hkk]; exact hpb', ?_⟩
      intro q' t' l' hq' ht' hD
      rw [if_neg (fun h => hkk h.2.1)] at hD
      exact hblk' q' t' l' hq' ht' hD

/-! ### MCUs -/

theorem ScanSt.congr {m : UInt8} {tail : List UInt8} {X Y n : Nat} {U : Nat → CU} {j : Jst} {preds preds' : Nat → Int}
    {D D' : Nat → Nat → Nat → Option (List Int)} {R : List Bool} (h : ScanSt m tail X Y n U j preds D R) (hp : ∀ k < n, preds' k = preds k)
    (hD : ∀ q < X * Y, ∀ k < n, ∀ t < (U k).h * (U k).v, D' q k t = D q k t) : ScanSt m tail X Y n U j preds' D' R := by
  refine ⟨h.ent, fun k hk => ?_⟩
  obtain ⟨c, h1, h2, h3, h4, h5⟩ := h.comps k hk
  refine ⟨c, h1, h2, by rw [hp k hk]; exact h3, by rw [hp k hk]; exact h4, fun q t l hq ht hl => ?_⟩
  rw [hD q hq k hk t ht] at hl
  exact h5 q t l hq ht hl

section
variable {m : UInt8} {tail : List UInt8} {X Y n : Nat} {U : Nat → CU}

theorem mcuComp_ok (hm : m ≠ 0) (hm' : m ≠ 0xFF)
    (hw : ∀ k < n, (U k).w2 = X * (U k).h * 8) (hlen : ∀ k < n, X * (U k).h * 8 * (Y * (U k).v * 8) ≤ (U k).len)
    {j : Jst} {preds : Nat → Int} {D : Nat → Nat → Nat → Option (List Int)} {R rest : List Bool} (hj : ScanSt m tail X Y n U j preds D R)
    {k : Nat} (hk : k < n) {q : Nat} (hq : q < X * Y) {u : Unit'} (hu1 : u.dc = asCode (U k).td) (hu2 : u.ac = asCode (U k).ta)
    {ls : List (List Int)} {p : Int} (hd : decodeBlocks u ((U k).h * (U k).v) (preds k) R = some (ls, p, rest))
    (hb : ∀ l ∈ ls, ∀ p < 64, |l.getD p 0 * ((U k).dq.getD (zagOf p) 0 : Nat)| ≤ 2300) :
    ∃ j', mcuComp (q % X) (q / X) k j = .ok (some j') ∧ SameButScan j j' ∧ j'.todo = j.todo ∧
      ScanSt m tail X Y n U j' (fun k' => if k' = k then p else preds k') (fun q' k' t' => if q' = q ∧ k' = k then ls[t']? else D q' k' t') rest := by
  obtain ⟨c, hc, T, _⟩ := hj.comps k hk
  have key : Ok (forN (c.v * c.h) (some j) fun t st => match st with
      | none => pure none
      | some j => scanBlock k ((q % X * c.h + t % c.h) * 8) ((q / X * c.v + t / c.h) * 8) j) fun st => ∃ j', st = some j' ∧ SameButScan j j' ∧ j'.todo = j.todo ∧
        ∃ pt Rt, decodeBlocks u ((U k).h * (U k).v - c.v * c.h) pt Rt = some (ls.drop (c.v * c.h), p, rest) ∧
          ScanSt m tail X Y n U j' (fun k' => if k' = k then pt else preds k') (fun q' k' t' => if q' = q ∧ k' = k ∧ t' < c.v * c.h then ls[t']? else D q' k' t') Rt := by
    refine forN_ok (fun t st => ∃ j', st = some j' ∧ SameButScan j j' ∧ j'.todo = j.todo ∧
        ∃ pt Rt, decodeBlocks u ((U k).h * (U k).v - t) pt Rt = some (ls.drop t, p, rest) ∧
          ScanSt m tail X Y n U j' (fun k' => if k' = k then pt else preds k') (fun q' k' t' => if q' = q ∧ k' = k ∧ t' < t then ls[t']? else D q' k' t') Rt) ?_ ?_
    · refine ⟨j, rfl, SameButScan.refl j, rfl, preds k, R, hd, hj.congr (fun k' _ => ?_) (fun q' _ k' _ t' _ => ?_)⟩
      · split
        · rename_i h; rw [h]
        · rfl
      · rw [if_neg (fun h => absurd h.2.2 (Nat.not_lt_zero _))]
    · rintro t ht _ ⟨j', rfl, s1, s2, pt, Rt, d1, s3⟩
      have ht' : t < (U k).h * (U k).v := by rw [T.hh, T.vv, Nat.mul_comm] at ht; exact ht
      rw [show (U k).h * (U k).v - t = ((U k).h * (U k).v - (t + 1)) + 1 by omega] at d1
      unfold decodeBlocks at d1
      simp only [Option.bind_eq_bind, Option.bind_eq_some_iff, Prod.exists, Option.some.injEq, Prod.mk.injEq] at d1
      obtain ⟨l, R1, d2, r, p', R2, d3, d4, rfl, rfl⟩ := d1
      have hlt : ls[t]? = some l := by
        have := congrArg (fun z => z[0]?) d4
        simpa [List.getElem?_drop] using this.symm
      have hdr : ls.drop (t + 1) = r := by
        have := congrArg List.tail d4
        rw [List.tail_drop] at this
        exact this.symm
      rw [hu1, hu2] at d2
      obtain ⟨j'', z1, z2, z3, z4⟩ := scanBlock_ok hm hm' hw hlen s3 hk hq ht' (by rw [if_pos rfl]; exact d2) (hb l (List.mem_of_getElem? hlt))
      dsimp only
      rw [T.hh, T.vv, z1]
      refine Ok.of_eq rfl ⟨j'', rfl, s1.trans z2, z3.trans s2, l.getD 0 0, R1, by rw [hdr]; exact d3, z4.congr (fun k' _ => ?_) (fun q' _ k' _ t' _ => ?_)⟩
      · split
        · rfl
        · rfl
      · by_cases h1 : q' = q ∧ k' = k
        · obtain ⟨rfl, rfl⟩ := h1
          by_cases h2 : t' = t
          · subst h2
            rw [if_pos ⟨rfl, rfl, by omega⟩, if_pos ⟨rfl, rfl, rfl⟩, hlt]
          · by_cases h3 : t' < t
            · rw [if_pos ⟨rfl, rfl, by omega⟩, if_neg (fun h => h2 h.2.2), if_pos ⟨rfl, rfl, h3⟩]
            · rw [if_neg (fun h => h3 (by have := h.2.2; omega)), if_neg (fun h => h2 h.2.2), if_neg (fun h => h3 h.2.2)]
        · rw [if_neg (fun h => h1 ⟨h.1, h.2.1⟩), if_neg (fun h => h1 ⟨h.1, h.2.1⟩), if_neg (fun h => h1 ⟨h.1, h.2.1⟩)]
  obtain ⟨_, e, j', rfl, s1, s2, pt, Rt, d1, s3⟩ := key
  have hvh : c.v * c.h = (U k).h * (U k).v := by rw [T.hh, T.vv, Nat.mul_comm]
  rw [hvh, Nat.sub_self] at d1
  unfold decodeBlocks at d1
  rw [Option.some.injEq, Prod.mk.injEq, Prod.mk.injEq] at d1
  obtain ⟨_, rfl, rfl⟩ := d1
  refine ⟨j', ?_, s1, s2, s3.congr (fun k' _ => rfl) (fun q' _ k' _ t' ht' => ?_)⟩
  · unfold mcuComp
    rw [rdIn_ok hc, ok_bind]
    exact (forN_flat c.v c.h (some j) (fun y x st => match st with
      | none => pure none
      | some j => scanBlock k ((q % X * c.h + x) * 8) ((q / X * c.v + y) * 8) j)).trans e
  · by_cases h1 : q' = q ∧ k' = k
    · obtain ⟨rfl, rfl⟩ := h1
      rw [if_pos ⟨rfl, rfl⟩, if_pos ⟨rfl, rfl, by rw [hvh]; exact ht'⟩]
    · rw [if_neg h1, if_neg (fun h => h1 ⟨h.1, h.2.1⟩)]

/-- The units of the specification for the components. -/
def UnitsFor (n : Nat) (U : Nat → CU) (us : List Unit') : Prop :=
  us.length = n ∧ ∀ k u, us[k]? = some u → u.dc = asCode (U k).td ∧ u.ac = asCode (U k).ta ∧ u.hs = (U k).h ∧ u.vs = (U k).v

/-- All coefficients are within the range of the transform. -/
def CoefsFit (U : Nat → CU) (b : List (List (List Int))) : Prop :=
  ∀ (k : Nat) (ls : List (List Int)), b[k]? = some ls → ∀ l ∈ ls, ∀ p < 64, |l.getD p 0 * ((U k).dq.getD (zagOf p) 0 : Nat)| ≤ 2300

theorem scanMCU_ok (hm : m ≠ 0) (hm' : m ≠ 0xFF)
    (hw : ∀ k < n, (U k).w2 = X * (U k).h * 8) (hlen : ∀ k < n, X * (U k).h * 8 * (Y * (U k).v * 8) ≤ (U k).len)
    {us : List Unit'} (hus : UnitsFor n U us)
    {j : Jst} {ps ps' : List Int} {D : Nat → Nat → Nat → Option (List Int)} {R rest : List Bool} (hj : ScanSt m tail X Y n U j (fun k => ps.getD k 0) D R)
    (hord : ∀ k < n, j.order[k]? = some k) (htodo : 1 < j.todo) (hti : j.todo ≤ 0x7FFFFFFF) {q : Nat} (hq : q < X * Y)
    {b : List (List (List Int))} (hd : decodeMCU us ps R = some (b, ps', rest)) (hb : CoefsFit U b) :
    ∃ j', scanMCU n (q % X) (q / X) j = .ok (.more j') ∧ SameButScan j j' ∧ j'.todo = j.todo - 1 ∧
      ScanSt m tail X Y n U j' (fun k => ps'.getD k 0) (fun q' k' t' => if q' = q then (b[k']?).bind (·[t']?) else D q' k' t') rest := by
  have key : Ok (forN n (some j) fun k st => match st with
      | none => pure none
      | some j => do
        let n ← rdIn j.order k
        mcuComp (q % X) (q / X) n j) fun st => ∃ j', st = some j' ∧ SameButScan j j' ∧ j'.todo = j.todo ∧
        ∃ Rt, decodeMCU (us.drop n) (ps.drop n) Rt = some (b.drop n, ps'.drop n, rest) ∧
          ScanSt m tail X Y n U j' (fun k' => if k' < n then ps'.getD k' 0 else ps.getD k' 0)
            (fun q' k' t' => if q' = q ∧ k' < n then (b[k']?).bind (·[t']?) else D q' k' t') Rt := by
    refine forN_ok (fun k st => ∃ j', st = some j' ∧ SameButScan j j' ∧ j'.todo = j.todo ∧
        ∃ Rt, decodeMCU (us.drop k) (ps.drop k) Rt = some (b.drop k, ps'.drop k, rest) ∧
          ScanSt m tail X Y n U j' (fun k' => if k' < k then ps'.getD k' 0 else ps.getD k' 0)
            (fun q' k' t' => if q' = q ∧ k' < k then (b[k']?).bind (·[t']?) else D q' k' t') Rt) ?_ ?_
    · refine ⟨j, rfl, SameButScan.refl j, rfl, R, hd, hj.congr (fun k' _ => ?_) (fun q' _ k' _ t' _ => ?_)⟩
      · rw [if_neg (Nat.not_lt_zero _)]
      · rw [if_neg (fun h => Nat.not_lt_zero _ h.2)]
    · rintro k hk _ ⟨j', rfl, s1, s2, Rt, d1, s3⟩
      have hul : k < us.length := by rw [hus.1]; exact hk
      obtain ⟨u, hu⟩ : ∃ u, us[k]? = some u := ⟨_, List.getElem?_eq_getElem hul⟩
      have hud : us.drop k = u :: us.drop (k + 1) := by
        rw [List.drop_eq_getElem_cons hul, (List.getElem?_eq_some_iff.1 hu).2]
      obtain ⟨u1, u2, u3, u4⟩ := hus.2 k u hu
      rw [hud] at d1
      cases hps : ps.drop k with
      | nil => rw [hps] at d1; unfold decodeMCU at d1; exact absurd d1 (by simp)
      | cons pk pr =>
        rw [hps] at d1
        unfold decodeMCU at d1
        simp only [Option.bind_eq_bind, Option.bind_eq_some_iff, Prod.exists, Option.some.injEq, Prod.mk.injEq] at d1
        obtain ⟨ls, p, R1, d2, r, pr', R2, d3, d4, d5, rfl⟩ := d1
        have tl : ∀ {α : Type} {L : List α} {a : α} {l : List α}, a :: l = L.drop k → L[k]? = some a ∧ L.drop (k + 1) = l := by
          intro α L a l h
          constructor
          · have := congrArg (fun z => z[0]?) h
            simpa [List.getElem?_drop] using this.symm
          · have := congrArg List.tail h
            rw [List.tail_drop] at this
            exact this.symm
        obtain ⟨b1, b2⟩ := tl d4
        obtain ⟨p1, p2⟩ := tl d5
        obtain ⟨q1, q2⟩ := tl hps.symm
        rw [u3, u4] at d2
        have hpk : ps.getD k 0 = pk := by
          rw [List.getD_eq_getElem?_getD, q1]
          rfl
        obtain ⟨j'', z1, z2, z3, z4⟩ := mcuComp_ok hm hm' hw hlen s3 hk hq u1 u2 (by rw [if_neg (lt_irrefl k), hpk]; exact d2) (hb k ls b1)
        have ho : j'.order[k]? = some k := by rw [s1.rest]; exact hord k hk
        dsimp only
        rw [rdIn_ok ho, ok_bind, z1]
        refine Ok.of_eq rfl ⟨j'', rfl, s1.trans z2, z3.trans s2, R1, by rw [b2, p2, q2]; exact d3, z4.congr (fun k' _ => ?_) (fun q' _ k' _ t' _ => ?_)⟩
        · by_cases h1 : k' = k
          · subst h1
            rw [if_pos (by omega), if_pos rfl, List.getD_eq_getElem?_getD, p1]
            rfl
          · by_cases h2 : k' < k
            · rw [if_pos (by omega), if_neg h1, if_pos h2]
            · rw [if_neg (by omega), if_neg h1, if_neg h2]
        · by_cases h1 : q' = q ∧ k' = k
          · rw [if_pos ⟨h1.1, by omega⟩, if_pos h1, h1.2, b1]
            rfl
          · by_cases h2 : q' = q ∧ k' < k
            · rw [if_pos ⟨h2.1, by omega⟩, if_neg h1, if_pos h2]
            · rw [if_neg (fun h => by omega), if_neg h1, if_neg h2]
  obtain ⟨_, e, j', rfl, s1, s2, Rt, d1, s3⟩ := key
  have hdn : us.drop n = [] := by rw [List.drop_eq_nil_iff, hus.1]
  rw [hdn] at d1
  have hRt : Rt = rest := by
    cases hps : ps.drop n with
    | nil =>
      rw [hps] at d1
      unfold decodeMCU at d1
      simp only [Option.some.injEq, Prod.mk.injEq] at d1
      exact d1.2.2
    | cons a l => rw [hps] at d1; unfold decodeMCU at d1; exact absurd d1 (by simp)
  subst hRt
  refine ⟨{ j' with todo := j.todo - 1 }, ?_, ⟨?_, s1.comps, s1.file⟩, rfl, ?_⟩
  · unfold scanMCU
    refine (bind_of_eq e _).trans ?_
    dsimp only
    unfold afterMCU
    rw [s2, i32_ok (by unfold IsI32; omega), ok_bind]
    dsimp only
    rw [if_neg (by omega)]
    rfl
  · rw [s1.rest]
  · have s4 := s3.congr (preds' := fun k => ps'.getD k 0) (D' := fun q' k' t' => if q' = q then (b[k']?).bind (·[t']?) else D q' k' t')
      (fun k' hk' => by rw [if_pos hk']) (fun q' _ k' hk' t' _ => by
        by_cases h : q' = q
        · rw [if_pos h, if_pos ⟨h, hk'⟩]
        · rw [if_neg h, if_neg (fun h' => h h'.1)])
    refine ⟨s4.ent, fun k hk => ?_⟩
    obtain ⟨c, h1, T, h3⟩ := s4.comps k hk
    exact ⟨c, h1, ⟨T.dc, T.ac, T.dq, T.small, T.ldq, T.dq1, T.hh, T.vv, T.ww, T.ll⟩, h3⟩

/-- A whole scan. -/
theorem parse_entropy_ok (hm : m ≠ 0) (hm' : m ≠ 0xFF) (hn : n ≠ 1)
    (hw : ∀ k < n, (U k).w2 = X * (U k).h * 8) (hlen : ∀ k < n, X * (U k).h * 8 * (Y * (U k).v * 8) ≤ (U k).len)
    {us : List Unit'} (hus : UnitsFor n U us) {j : Jst} {data : List UInt8} {rest : List Bool}
    (hctx : CtxOk j.e.s) (hrem : Ctx.rem j.e.s = stuff data ++ 0xFF :: m :: tail) (hr : j.restart = 0)
    (hX : j.mcuX = X) (hY : j.mcuY = Y) (hXY : X * Y < 0x7FFFFFFE)
    (hcomps : ∀ k < n, ∃ c, j.comps[k]? = some c ∧ CompTabs j c (U k))
    (hord : ∀ k < n, j.order[k]? = some k) {ms : List (List (List (List Int)))}
    (hd : decodeMCUs us (X * Y) (us.map fun _ => 0) (bitsOf data) = some (ms, rest)) (hb : ∀ b ∈ ms, CoefsFit U b) :
    ∃ j', parse_entropy n j = .ok (some j') ∧ SameButScan j j' ∧ (∃ preds, ScanSt m tail X Y n U j' preds (fun q k t => (ms[q]?).bind fun b => (b[k]?).bind (·[t]?)) rest) := by
  have hstart : ScanSt m tail X Y n U (j_reset j) (fun k => ((us.map fun _ => 0 : List Int)).getD k 0) (fun _ _ _ => none) (bitsOf data) := by
    refine ⟨⟨hctx, [], data, 0, rfl, Nat.zero_le _, rfl, by simp, Or.inl ⟨rfl, rfl, hrem, rfl⟩⟩, fun k hk => ?_⟩
    obtain ⟨c, hc, T⟩ := hcomps k hk
    have h0 : ((us.map fun _ => 0 : List Int)).getD k 0 = 0 := by
      rw [List.getD_eq_getElem?_getD, List.getElem?_map]
      cases us[k]? <;> rfl
    refine ⟨{ c with pred := 0 }, ?_, ⟨T.dc, T.ac, T.dq, T.small, T.ldq, T.dq1, T.hh, T.vv, T.ww, T.ll⟩, h0.symm, by rw [h0]; norm_num, fun q t l _ _ h => absurd h (by simp)⟩
    unfold j_reset
    dsimp only
    rw [List.getElem?_map, hc]
    rfl
  have hsame : SameButScan j (j_reset j) := by
    refine ⟨rfl, ?_, rfl⟩
    unfold j_reset
    dsimp only
    rw [List.map_map]
    rfl
  have htodo : (j_reset j).todo = 0x7FFFFFFF := by
    unfold j_reset
    dsimp only
    rw [if_neg (by rw [hr]; simp)]
  have hord' : ∀ k < n, (j_reset j).order[k]? = some k := hord
  have hX' : (j_reset j).mcuX = X := hX
  have hY' : (j_reset j).mcuY = Y := hY
  generalize hj0 : j_reset j = j0 at *
  have key : Ok (forN (Y * X) (ScanOut.more j0) fun q st => scanNext (scanMCU n (q % X) (q / X)) st) fun st => ∃ j', st = ScanOut.more j' ∧ SameButScan j j' ∧
        j'.todo = 0x7FFFFFFF - (Y * X : Nat) ∧
        ∃ ps Rt, decodeMCUs us (X * Y - Y * X) ps Rt = some (ms.drop (Y * X), rest) ∧
          ScanSt m tail X Y n U j' (fun k => ps.getD k 0) (fun q' k' t' => if q' < Y * X then (ms[q']?).bind fun b => (b[k']?).bind (·[t']?) else none) Rt := by
    refine forN_ok (fun q st => ∃ j', st = ScanOut.more j' ∧ SameButScan j j' ∧ j'.todo = 0x7FFFFFFF - (q : Nat) ∧
        ∃ ps Rt, decodeMCUs us (X * Y - q) ps Rt = some (ms.drop q, rest) ∧
          ScanSt m tail X Y n U j' (fun k => ps.getD k 0) (fun q' k' t' => if q' < q then (ms[q']?).bind fun b => (b[k']?).bind (·[t']?) else none) Rt) ?_ ?_
    · refine ⟨j0, rfl, hsame, by rw [htodo]; simp, _, _, hd, hstart.congr (fun _ _ => rfl) (fun q' _ k' _ t' _ => ?_)⟩
      rw [if_neg (Nat.not_lt_zero _)]
    · rintro q hq _ ⟨j', rfl, s1, s2, ps, Rt, d1, s3⟩
      have hq' : q < X * Y := by rw [Nat.mul_comm]; exact hq
      rw [show X * Y - q = (X * Y - (q + 1)) + 1 by omega] at d1
      unfold decodeMCUs at d1
      simp only [Option.bind_eq_bind, Option.bind_eq_some_iff, Prod.exists, Option.some.injEq, Prod.mk.injEq] at d1
      obtain ⟨b, ps', R1, d2, r, R2, d3, d4, rfl⟩ := d1
      have hbt : ms[q]? = some b := by
        have := congrArg (fun z => z[0]?) d4
        simpa [List.getElem?_drop] using this.symm
      have hdr : ms.drop (q + 1) = r := by
        have := congrArg List.tail d4
        rw [List.tail_drop] at this
        exact this.symm
      obtain ⟨j'', z1, z2, z3, z4⟩ := scanMCU_ok hm hm' hw hlen hus s3 (fun k hk => by rw [s1.rest]; exact hord k hk) (by rw [s2]; omega) (by rw [s2]; omega) hq' d2
        (hb b (List.mem_of_getElem? hbt))
      unfold scanNext
      dsimp only
      rw [z1]
      refine Ok.of_eq rfl ⟨j'', rfl, s1.trans z2, by rw [z3, s2]; push_cast; omega, ps', R1, by rw [hdr]; exact d3, z4.congr (fun _ _ => rfl) (fun q' _ k' _ t' _ => ?_)⟩
      by_cases h1 : q' = q
      · subst h1
        rw [if_pos (by omega), if_pos rfl, hbt]
        rfl
      · by_cases h2 : q' < q
        · rw [if_pos (by omega), if_neg h1, if_pos h2]
        · rw [if_neg (by omega), if_neg h1, if_neg h2]
  obtain ⟨_, e, j', rfl, s1, s2, ps, Rt, d1, s3⟩ := key
  rw [Nat.mul_comm X Y, Nat.sub_self] at d1
  unfold decodeMCUs at d1
  rw [Option.some.injEq, Prod.mk.injEq] at d1
  obtain ⟨_, rfl⟩ := d1
  refine ⟨j', ?_, s1, _, s3.congr (fun _ _ => rfl) (fun q' hq' k' _ t' _ => ?_)⟩
  · unfold parse_entropy
    dsimp only
    rw [hj0, if_neg hn]
    refine (bind_of_eq (a := ScanOut.more j') ((forN_flat j0.mcuY j0.mcuX (ScanOut.more j0) (fun jj i st => scanNext (scanMCU n i jj) st)).trans ?_) _).trans rfl
    rw [hX', hY']
    exact e
  · rw [if_pos (by rw [Nat.mul_comm]; exact hq')]

end

end FlatCV
