/-
The JPEG decoder on arbitrary files: the scans of progressive files.
-/
import Verif.Lemmas.JpegSafeProg

namespace FlatCV
open Model

/-- The number of samples of component `i`. -/
def Dims.area (D : Dims) (i : Nat) : Nat := D.mX * D.h i * 8 * (D.mY * D.v i * 8)

structure ProgS (B : Prop) (D : Dims) (p : Prog) : Prop where
  s : JstS B p.j
  fr : FrameS D p.j
  cl : p.coef.length = 4
  cf : ∀ i < D.N, ∃ c, p.coef[i]? = some c ∧ c.length = D.area i
  ss : p.q.ss ≤ p.q.se
  se : p.q.se ≤ 63
  sl : p.q.sl ≤ 13

theorem coef_set {D : Dims} {l : List (Cells Int)} (cl : l.length = 4) (hn : D.N ≤ 4) (h : ∀ i < D.N, ∃ c, l[i]? = some c ∧ c.length = D.area i) {n : Nat} {c : Cells Int} (hc : n < D.N → c.length = D.area n) :
    ∀ i < D.N, ∃ c', (l.set n c)[i]? = some c' ∧ c'.length = D.area i := by
  intro i hi
  by_cases hin : n = i
  · subst hin
    exact ⟨c, List.getElem?_set_self (by omega), hc hi⟩
  · rw [List.getElem?_set_ne hin]
    exact h i hi

theorem block_in {W H x y n : Nat} (hx : x < W) (hy : y < H) (hn : n = W * 8 * (H * 8)) : 64 * (x + y * (W * 8 / 8)) + 64 ≤ n := by
  rw [Nat.mul_div_cancel _ (by decide)]
  subst hn
  have h1 : (y + 1) * W ≤ H * W := Nat.mul_le_mul_right W hy
  have h2 : W * 8 * (H * 8) = 64 * (H * W) := by ring
  have h3 : (y + 1) * W = y * W + W := by ring
  omega

structure InProg (B : Prop) (D : Dims) (p p' : Prog) : Prop where
  s : ProgS B D p'
  on : Onward p.j.e.s p'.j.e.s

theorem InProg.trans {B : Prop} {D : Dims} {a b c : Prog} (h : InProg B D a b) (h' : InProg B D b c) : InProg B D a c := ⟨h'.s, h.on.trans h'.on⟩

/-- The state in a scan. -/
structure InPScan (B : Prop) (D : Dims) (p p' : Prog) : Prop where
  i : InProg B D p p'
  e : EntS p'.j.e

theorem InPScan.trans {B : Prop} {D : Dims} {a b c : Prog} (h : InPScan B D a b) (h' : InPScan B D b c) : InPScan B D a c := ⟨h.i.trans h'.i, h'.e⟩

theorem frame_plane {D : Dims} {j : Jst} (F : FrameS D j) {n : Nat} (hn : n < D.N) {c : JComp} (hc : j.comps[n]? = some c) : PlaneS D n c := by
  obtain ⟨c', e1, e2⟩ := F.comp n hn
  rw [hc] at e1
  injection e1 with e1
  subst e1
  exact e2

theorem coef_len {B : Prop} {D : Dims} {p : Prog} (P : ProgS B D p) {n : Nat} (hn : n < D.N) {c : Cells Int} (hc : p.coef[n]? = some c) : c.length = D.area n := by
  obtain ⟨c', e1, e2⟩ := P.cf n hn
  rw [hc] at e1
  injection e1 with e1
  subst e1
  exact e2

theorem progDcAt_out {B : Prop} {D : Dims} (hD : DimsOk D) {p : Prog} (P : ProgS B D p) (hE : EntS p.j.e) {n x y : Nat} (hn : n < D.N) (hx : x < D.mX * D.h n) (hy : y < D.mY * D.v n) :
    Outc (JE B) (progDcAt n x y p) fun r => ∀ p', r = some p' → InPScan B D p p' := by
  unfold progDcAt
  have hn4 := (dims_n hD).2
  have J := P.s
  have F := P.fr
  refine Outc.bind (js_rdIn (by rw [J.cl]; omega)) fun c hc => ?_
  have hC := J.c c (js_mem hc)
  have hP := frame_plane F hn hc
  have := hC.hd
  refine Outc.bind (js_rdIn (by rw [P.cl]; omega)) fun cf hcf => ?_
  refine Outc.bind (js_rdIn (by rw [J.dcl]; omega)) fun hdc h1 => ?_
  have hlen := coef_len P hn hcf
  refine Outc.bind (prog_dc_out hE (J.dc _ (js_mem h1)) hC.pred hlen (by rw [hP.w2]; exact block_in hx hy rfl)) fun r hr => ?_
  cases r with
  | none => exact fun j' e => by cases e
  | some t =>
    obtain ⟨cf', pred, e⟩ := t
    obtain ⟨b1, b2, b3, b4⟩ := hr cf' pred e rfl
    refine Outc.bind (js_wrIn (by rw [J.cl]; omega)) fun cs hcs => ?_
    refine Outc.bind (js_wrIn (by rw [P.cl]; omega)) fun co hco => ?_
    subst hcs
    subst hco
    refine Outc.pure fun p' e' => ?_
    injection e' with e'
    subst e'
    exact ⟨⟨⟨⟨J.dcl, J.dc, J.acl, J.ac, J.dql, J.dq, J.fl, J.f, by rw [List.length_set]; exact J.cl, mem_set_all J.c ⟨hC.hd, hC.ha, hC.tq, b2, hC.data⟩, J.ol⟩,
      ⟨F.imgX, F.imgY, F.imgN, F.hMax, F.vMax, F.mcuX, F.mcuY, frame_set F J.cl hn4 hc rfl rfl rfl rfl rfl rfl, F.ord⟩,
      by rw [List.length_set]; exact P.cl, coef_set P.cl hn4 P.cf fun _ => b1, P.ss, P.se, P.sl⟩, b4⟩, b3⟩

theorem progAcAt_out {B : Prop} {D : Dims} (hD : DimsOk D) {p : Prog} (P : ProgS B D p) (hE : EntS p.j.e) {n x y : Nat} (hn : n < D.N) (hx : x < D.mX * D.h n) (hy : y < D.mY * D.v n) :
    Outc (JE B) (progAcAt n x y p) fun r => ∀ p', r = some p' → InPScan B D p p' := by
  unfold progAcAt
  have hn4 := (dims_n hD).2
  have J := P.s
  have F := P.fr
  refine Outc.bind (js_rdIn (by rw [J.cl]; omega)) fun c hc => ?_
  have hC := J.c c (js_mem hc)
  have hP := frame_plane F hn hc
  have := hC.ha
  refine Outc.bind (js_rdIn (by rw [P.cl]; omega)) fun cf hcf => ?_
  refine Outc.bind (js_rdIn (by rw [J.acl]; omega)) fun hac h1 => ?_
  refine Outc.bind (js_rdIn (by rw [J.fl]; omega)) fun fac h2 => ?_
  have hlen := coef_len P hn hcf
  refine Outc.bind (prog_ac_out P.ss P.se P.sl hE (J.ac _ (js_mem h1)) (J.f _ (js_mem h2)) hlen (by rw [hP.w2]; exact block_in hx hy rfl)) fun r hr => ?_
  cases r with
  | none => exact fun j' e => by cases e
  | some t =>
    obtain ⟨cf', eob, e⟩ := t
    obtain ⟨b1, b3, b4⟩ := hr cf' eob e rfl
    refine Outc.bind (js_wrIn (by rw [P.cl]; omega)) fun co hco => ?_
    subst hco
    refine Outc.pure fun p' e' => ?_
    injection e' with e'
    subst e'
    exact ⟨⟨⟨J.ent e, F.kept (Kept.ent _ _), by rw [List.length_set]; exact P.cl, coef_set P.cl hn4 P.cf fun _ => b1, P.ss, P.se, P.sl⟩, b4⟩, b3⟩

/-- The scan goes on, or ends, in a good state. -/
def ProgOk (B : Prop) (D : Dims) (p : Prog) : ProgOut → Prop
  | .fail => True
  | .stop p' => InProg B D p p'
  | .more p' => InPScan B D p p'

theorem ProgOk.mono {B : Prop} {D : Dims} {a b : Prog} (h : InPScan B D a b) {st : ProgOut} (hs : ProgOk B D b st) : ProgOk B D a st := by
  cases st with
  | fail => trivial
  | stop j' => exact h.i.trans hs
  | more j' => exact h.trans hs

theorem progAfter_out {B : Prop} {D : Dims} {p : Prog} (P : ProgS B D p) (hE : EntS p.j.e) : Outc (JE B) (progAfter p) (ProgOk B D p) := by
  unfold progAfter
  refine Outc.bind (afterMCU_out P.s P.fr hE) fun r hr => ?_
  cases r with
  | fail => trivial
  | stop j => exact ⟨⟨hr.s, hr.fr, P.cl, P.cf, P.ss, P.se, P.sl⟩, hr.on⟩
  | more j => exact ⟨⟨⟨hr.i.s, hr.i.fr, P.cl, P.cf, P.ss, P.se, P.sl⟩, hr.i.on⟩, hr.e⟩

theorem progComp_out {B : Prop} {D : Dims} (hD : DimsOk D) {p : Prog} (P : ProgS B D p) (hE : EntS p.j.e) {i jj n : Nat} (hn : n < D.N) (hi : i < D.mX) (hj : jj < D.mY) :
    Outc (JE B) (progComp i jj n p) fun r => ∀ p', r = some p' → InPScan B D p p' := by
  unfold progComp
  have hn4 := (dims_n hD).2
  refine Outc.bind (js_rdIn (by rw [P.s.cl]; omega)) fun c hc => ?_
  have hP := frame_plane P.fr hn hc
  rw [hP.h, hP.v]
  have aux : ∀ {i m h x : Nat}, i < m → x < h → i * h + x < m * h := by
    intro i m h x h1 h2
    have : (i + 1) * h ≤ m * h := Nat.mul_le_mul_right h h1
    have e : (i + 1) * h = i * h + h := by ring
    omega
  have h0 : ∀ p', some p = some p' → InPScan B D p p' := by
    intro p' e
    injection e with e
    subst e
    exact ⟨⟨P, Onward.refl _⟩, hE⟩
  refine (Outc.forN (fun _ (r : Option Prog) => ∀ p', r = some p' → InPScan B D p p') h0 ?_).mono fun r hr => hr
  intro y hy r hr
  refine (Outc.forN (fun _ (r : Option Prog) => ∀ p', r = some p' → InPScan B D p p') hr ?_).mono fun r hr => hr
  intro x hx r hr
  cases r with
  | none => exact fun j' e => by cases e
  | some p1 =>
    have h1 := hr p1 rfl
    exact (progDcAt_out hD h1.i.s h1.e hn (aux hi hx) (aux hj hy)).mono fun r hr j' e => h1.trans (hr j' e)

theorem prog_entropy_out {B : Prop} {D : Dims} (hD : DimsOk D) {p : Prog} (P : ProgS B D p) {scanN : Nat} (hs : scanN ≤ 4) :
    Outc (JE B) (prog_entropy scanN p) fun r => ∀ p', r = some p' → InProg B D p p' := by
  unfold prog_entropy
  have R := reset_out P.s P.fr
  have I : InPScan B D p { p with j := j_reset p.j, eob := 0 } := ⟨⟨⟨R.i.s, R.i.fr, P.cl, P.cf, P.ss, P.se, P.sl⟩, R.i.on⟩, R.e⟩
  have hn4 := (dims_n hD).2
  dsimp only
  generalize ({ p with j := j_reset p.j, eob := 0 } : Prog) = p0 at I ⊢
  refine Outc.bind (P := ProgOk B D p) ?_ fun st hst => ?_
  · split
    · unfold progOne
      refine Outc.bind (js_rdIn (by rw [I.i.s.s.ol]; decide)) fun n hn => ?_
      have hnN := I.i.s.fr.ord n (js_mem hn)
      refine Outc.bind (js_rdIn (by rw [I.i.s.s.cl]; omega)) fun c hc => ?_
      have hP := frame_plane I.i.s.fr hnN hc
      have hx := plane_x hD hP
      have hy := plane_y hD hP
      rw [hP.w2] at hx
      rw [hP.h2] at hy
      refine (Outc.forN (fun _ => ProgOk B D p) (s := ProgOut.more p0) I ?_).mono fun r hr => hr
      intro y hyy st hst
      refine (Outc.forN (fun _ => ProgOk B D p) hst ?_).mono fun r hr => hr
      intro x hxx st hst
      cases st with
      | fail => exact hst
      | stop j1 => exact hst
      | more p1 =>
        have h1 : InPScan B D p p1 := hst
        have hx' : x < D.mX * D.h n := by omega
        have hy' : y < D.mY * D.v n := by omega
        show Outc (JE B) ((if p1.q.ss = 0 then progDcAt n x y p1 else progAcAt n x y p1) >>= _) _
        refine Outc.bind (P := fun r : Option Prog => ∀ p', r = some p' → InPScan B D p1 p') ?_ fun r hr => ?_
        · split
          · exact progDcAt_out hD h1.i.s h1.e hnN hx' hy'
          · exact progAcAt_out hD h1.i.s h1.e hnN hx' hy'
        · cases r with
          | none => trivial
          | some p2 =>
            have h2 := hr p2 rfl
            exact (progAfter_out h2.i.s h2.e).mono fun r hr => (ProgOk.mono h2 hr).mono h1
    · refine (Outc.forN (fun _ => ProgOk B D p) (s := ProgOut.more p0) I ?_).mono fun r hr => hr
      intro jj hjj st hst
      refine (Outc.forN (fun _ => ProgOk B D p) hst ?_).mono fun r hr => hr
      intro i hi st hst
      rw [R.i.fr.mcuX] at hi
      rw [R.i.fr.mcuY] at hjj
      cases st with
      | fail => exact hst
      | stop j1 => exact hst
      | more p1 =>
        have h1 : InPScan B D p p1 := hst
        show Outc (JE B) (progMCU scanN i jj p1) _
        unfold progMCU
        have h0 : ∀ p', some p1 = some p' → InPScan B D p1 p' := by
          intro p' e
          injection e with e
          subst e
          exact ⟨⟨h1.i.s, Onward.refl _⟩, h1.e⟩
        refine Outc.bind (P := fun r : Option Prog => ∀ p', r = some p' → InPScan B D p1 p')
          ((Outc.forN (fun _ (r : Option Prog) => ∀ p', r = some p' → InPScan B D p1 p') h0 ?_).mono fun r hr => hr) fun r hr => ?_
        · intro k hk r hr
          cases r with
          | none => exact fun j' e => by cases e
          | some p2 =>
            have h2 := hr p2 rfl
            refine Outc.bind (js_rdIn (by rw [h2.i.s.s.ol]; omega)) fun n hn => ?_
            have hnN := h2.i.s.fr.ord n (js_mem hn)
            exact (progComp_out hD h2.i.s h2.e hnN hi hjj).mono fun r hr j' e => h2.trans (hr j' e)
        · cases r with
          | none => trivial
          | some p2 =>
            have h2 := hr p2 rfl
            exact (progAfter_out h2.i.s h2.e).mono fun r hr => (ProgOk.mono h2 hr).mono h1
  · cases st with
    | fail => exact fun j' e => by cases e
    | stop j1 =>
      refine Outc.pure fun j' e => ?_
      injection e with e
      subst e
      exact hst
    | more j1 =>
      refine Outc.pure fun j' e => ?_
      injection e with e
      subst e
      exact hst.i

theorem prog_scan_header_out {E : Fault → Prop} {B : Prop} {D : Dims} (hD : DimsOk D) {p : Prog} (P : ProgS B D p) :
    Outc E (prog_scan_header p) fun r => ∀ p' n, r = some (p', n) → InProg B D p p' ∧ Ctx.left p'.j.e.s + 1 ≤ Ctx.left p.j.e.s ∧ n ≤ 4 := by
  unfold prog_scan_header
  have r1 := get16_reads p.j.e.s
  have hpos := get16_pos (s := p.j.e.s)
  rcases e1 : get16be p.j.e.s with ⟨ls, s1⟩
  rw [e1] at r1 hpos
  have r2 := get8_reads s1
  rcases e2 : get8 s1 with ⟨n, s2⟩
  rw [e2] at r2
  dsimp only at r1 r2 hpos ⊢
  rw [e2]
  dsimp only
  split
  · exact fun j' n e => by cases e
  · rename_i hn
    split
    · exact fun j' n e => by cases e
    · rename_i hls
      have hp := hpos (by omega)
      refine Outc.bind (P := fun r : Option Jst => ∀ j', r = some j' → InFrame B D (p.j.at s2) j')
        ((Outc.forN (fun _ (r : Option Jst) => ∀ j', r = some j' → InFrame B D (p.j.at s2) j') ?_ ?_).mono fun r hr => hr) fun r hr => ?_
      · intro j' e
        injection e with e
        subst e
        exact ⟨P.s.at s2, P.fr.kept (Kept.ent _ _), Onward.refl _⟩
      · intro i hi r hr
        cases r with
        | none => exact fun j' e => by cases e
        | some j1 =>
          have h1 := hr j1 rfl
          exact (scanComp_out hD h1.s h1.fr (by omega)).mono fun r hr j' e => h1.trans (hr j' e)
      · cases r with
        | none => exact fun j' n e => by cases e
        | some j1 =>
          have h1 := hr j1 rfl
          have r3 := takeBytes_reads 3 j1.e.s
          dsimp only
          rcases e3 : takeBytes 3 j1.e.s with ⟨b, s3⟩
          rw [e3] at r3
          dsimp only at r3 ⊢
          split
          · exact fun j' n e => by cases e
          · rename_i hpar
            refine Outc.pure fun p' n e => ?_
            injection e with e
            injection e with e en
            subst e
            have hon : Onward s2 s3 := Onward.trans (b := j1.e.s) h1.on r3
            refine ⟨⟨⟨h1.s.at s3, h1.fr.kept (Kept.ent _ _), P.cl, P.cf, ?_, ?_, ?_⟩, (r1.trans r2).trans hon⟩, ?_, by omega⟩
            · show b.getD 0 0 ≤ b.getD 1 0
              omega
            · show b.getD 1 0 ≤ 63
              omega
            · show b.getD 2 0 % 16 ≤ 13
              omega
            · have a1 := hon.left
              have a2 := r2.left
              show Ctx.left s3 + 1 ≤ _
              omega

/-! ### The file -/

theorem dequantize_out {B : Prop} {cf : Cells Int} {off n : Nat} {dq : List Nat} (hl : cf.length = n) (ho : off + 64 ≤ n) (Q : DqS dq) : Outc (JE B) (dequantize cf off dq) fun r => r.length = 64 := by
  unfold dequantize
  have key : ∀ m ≤ 64, Outc (JE B) (forN m ([] : List Int) fun i l => do
      let v ← rd cf (off + i)
      let q ← rdIn dq i
      let p ← i32 (v * q)
      Pure.pure (l ++ [asShort p])) fun r => r.length = m := by
    intro m hm
    refine (Outc.forN (fun i (r : List Int) => r.length = i) rfl fun i hi r hr => ?_).mono fun r hr => hr
    refine Outc.bind (js_rd (by omega)) fun v _ => ?_
    refine Outc.bind (js_rdIn (by rw [Q.len]; omega)) fun q _ => ?_
    refine Outc.bind (js_i32' _) fun z _ => ?_
    refine Outc.pure ?_
    rw [List.length_append, hr]
    rfl
  exact key 64 le_rfl

theorem finishBlock_out {B : Prop} {D : Dims} (hD : DimsOk D) {p : Prog} (P : ProgS B D p) {n x y : Nat} (hn : n < D.N) (hx : x < D.mX * D.h n) (hy : y < D.mY * D.v n) :
    Outc (JE B) (finishBlock n x y p) (ProgS B D) := by
  unfold finishBlock
  have hn4 := (dims_n hD).2
  have J := P.s
  have F := P.fr
  refine Outc.bind (js_rdIn (by rw [J.cl]; omega)) fun c hc => ?_
  have hC := J.c c (js_mem hc)
  have hP := frame_plane F hn hc
  have := hC.tq
  refine Outc.bind (js_rdIn (by rw [P.cl]; omega)) fun cf hcf => ?_
  refine Outc.bind (js_rdIn (by rw [J.dql]; omega)) fun dq h1 => ?_
  refine Outc.bind (dequantize_out (coef_len P hn hcf) (by rw [hP.w2]; exact block_in hx hy rfl) (J.dq _ (js_mem h1))) fun data hdata => ?_
  refine Outc.bind (idct_block_out (n := c.w2 * c.h2) hC.data ?_ hdata) fun d hd => ?_
  · rw [hP.w2, hP.h2]
    generalize D.mX * D.h n = W at hx
    generalize D.mY * D.v n = H at hy
    have h1 : W * 8 * ((y + 1) * 8) ≤ W * 8 * (H * 8) := Nat.mul_le_mul_left _ (by omega)
    have h2 : W * 8 * ((y + 1) * 8) = W * 8 * (y * 8) + 8 * (W * 8) := by ring
    omega
  · refine Outc.bind (js_wrIn (by rw [J.cl]; omega)) fun cs hcs => ?_
    subst hcs
    exact ⟨⟨J.dcl, J.dc, J.acl, J.ac, J.dql, J.dq, J.fl, J.f, by rw [List.length_set]; exact J.cl, mem_set_all J.c ⟨hC.hd, hC.ha, hC.tq, hC.pred, hd⟩, J.ol⟩,
      ⟨F.imgX, F.imgY, F.imgN, F.hMax, F.vMax, F.mcuX, F.mcuY, frame_set F J.cl hn4 hc rfl rfl rfl rfl rfl rfl, F.ord⟩, P.cl, P.cf, P.ss, P.se, P.sl⟩

theorem jpeg_finish_out {B : Prop} {D : Dims} (hD : DimsOk D) {p : Prog} (P : ProgS B D p) : Outc (JE B) (jpeg_finish p) (ProgS B D) := by
  unfold jpeg_finish
  have hn4 := (dims_n hD).2
  rw [P.fr.imgN]
  refine (Outc.forN (fun _ => ProgS B D) P fun n hn p P => ?_).mono fun r hr => hr
  refine Outc.bind (js_rdIn (by rw [P.s.cl]; omega)) fun c hc => ?_
  have hP := frame_plane P.fr hn hc
  have hx := plane_x hD hP
  have hy := plane_y hD hP
  rw [hP.w2] at hx
  rw [hP.h2] at hy
  refine (Outc.forN (fun _ => ProgS B D) P fun y hyy p P => ?_).mono fun r hr => hr
  refine (Outc.forN (fun _ => ProgS B D) P fun x hxx p P => ?_).mono fun r hr => hr
  exact finishBlock_out hD P hn (by omega) (by omega)

theorem progLoop_out {B : Prop} {s0 : Ctx} (hB : ∀ s, Onward s0 s → (takeBytes 16 s).1.sum = 256 → B) {feof : Ctx → Bool} (hf : EofOk feof) {D : Dims} (hD : DimsOk D) :
    ∀ (n m : Nat) (p : Prog), Ctx.left p.j.e.s < n → ProgS B D p → Onward s0 p.j.e.s →
      Outc (JE B) (progLoop feof n m p) fun r => ∀ j', r = some j' → JstS B j' ∧ FrameS D j' := by
  intro n
  induction n with
  | zero => intro m p h; omega
  | succ n ih =>
    intro m p hl P h0
    have next : ∀ (p1 : Prog), InProg B D p p1 → Ctx.left p1.j.e.s + 1 ≤ Ctx.left p.j.e.s → ∀ (M : CM (Nat × Jst)), Outc (JE B) M (fun r => ∃ e', r.2 = { p1.j with e := e' } ∧ Onward p1.j.e.s e'.s) →
        Outc (JE B) (M >>= fun x => match x with | (m, j) => progLoop feof n m { p1 with j := j }) fun r => ∀ j', r = some j' → JstS B j' ∧ FrameS D j' := by
      intro p1 h1 hl1 M hM
      refine Outc.bind hM fun r hr => ?_
      obtain ⟨m2, j2⟩ := r
      obtain ⟨e2, h2, o2⟩ := hr
      dsimp only at h2 ⊢
      subst h2
      have := o2.left
      exact ih m2 _ (by show Ctx.left e2.s < n; omega) ⟨h1.s.s.ent e2, h1.s.fr.kept (Kept.ent _ _), h1.s.cl, h1.s.cf, h1.s.ss, h1.s.se, h1.s.sl⟩ ((h0.trans h1.on).trans o2)
    unfold progLoop
    split
    · refine Outc.bind (jpeg_finish_out hD P) fun p1 P1 => ?_
      refine Outc.pure fun j' e => ?_
      injection e with e
      subst e
      exact ⟨P1.s, P1.fr⟩
    · split
      · refine Outc.bind (prog_scan_header_out hD P) fun r hr => ?_
        cases r with
        | none => exact fun j' e => by cases e
        | some t =>
          obtain ⟨p1, k⟩ := t
          obtain ⟨a1, a2, a3⟩ := hr p1 k rfl
          refine Outc.bind (prog_entropy_out hD a1.s a3) fun r hr => ?_
          cases r with
          | none => exact fun j' e => by cases e
          | some p2 =>
            have b1 := hr p2 rfl
            have := b1.on.left
            exact next p2 (a1.trans b1) (by omega) _ (afterScan_out hf p2.j)
      · split
        · have r1 := get16_reads p.j.e.s
          have p1 := get16_pos (s := p.j.e.s)
          rcases e1 : get16be p.j.e.s with ⟨ld, s1⟩
          rw [e1] at r1 p1
          dsimp only at r1 p1 ⊢
          have r2 := get16_reads s1
          rcases e2 : get16be s1 with ⟨nl, s2⟩
          rw [e2] at r2
          dsimp only at r2 ⊢
          split
          · exact fun j' e => by cases e
          · split
            · exact fun j' e => by cases e
            · have h1 := p1 (by omega)
              have h2 := r2.left
              refine next { p with j := p.j.at s2 } ⟨⟨P.s.at s2, P.fr.kept (Kept.ent _ _), P.cl, P.cf, P.ss, P.se, P.sl⟩, r1.trans r2⟩ (by show Ctx.left s2 + 1 ≤ _; omega) _
                ((get_marker_out (p.j.at s2)).mono fun r hr => ?_)
              obtain ⟨e', h', o', _⟩ := hr
              exact ⟨e', h', o'⟩
        · refine Outc.bind (process_marker_out hB P.s h0 m) fun r hr => ?_
          cases r with
          | none =>
            refine Outc.pure fun j' e => ?_
            injection e with e
            subst e
            exact ⟨P.s, P.fr⟩
          | some j1 =>
            obtain ⟨a1, a2⟩ := hr j1 rfl
            refine next { p with j := j1 } ⟨⟨a1.s, P.fr.kept a1.kept, P.cl, P.cf, P.ss, P.se, P.sl⟩, a1.on⟩ a2 _ ((get_marker_out j1).mono fun r hr => ?_)
            obtain ⟨e', h', o', _⟩ := hr
            exact ⟨e', h', o'⟩

theorem coefPlanes_out {E : Fault → Prop} {B : Prop} {D : Dims} (hD : DimsOk D) {cm : Nat → Bool} {j : Jst} (J : JstS B j) (F : FrameS D j) :
    Outc E (coefPlanes cm j) fun r => ∀ l, r = some l → l.length = 4 ∧ ∀ i < D.N, ∃ c, l[i]? = some c ∧ c.length = D.area i := by
  unfold coefPlanes
  have hn4 := (dims_n hD).2
  rw [F.imgN]
  refine (Outc.forN (fun k (r : Option (List (Cells Int))) => ∀ l, r = some l → l.length = 4 ∧ ∀ i < k, ∃ c, l[i]? = some c ∧ c.length = D.area i) ?_ ?_).mono fun r hr => hr
  · intro l e
    injection e with e
    subst e
    exact ⟨rfl, fun i hi => absurd hi (Nat.not_lt_zero i)⟩
  · intro n hn r hr
    cases r with
    | none => exact fun l e => by cases e
    | some l =>
      obtain ⟨h1, h2⟩ := hr l rfl
      unfold coefPlane
      refine Outc.bind (js_rdIn (by rw [J.cl]; omega)) fun c hc => ?_
      have hP := frame_plane F hn hc
      split
      · refine Outc.bind (js_wrIn (by omega)) fun l' hl' => ?_
        subst hl'
        refine Outc.pure fun l' e => ?_
        injection e with e
        subst e
        refine ⟨by rw [List.length_set]; exact h1, fun i hi => ?_⟩
        by_cases hin : n = i
        · subst hin
          exact ⟨_, List.getElem?_set_self (by omega), by rw [List.length_replicate, hP.w2, hP.h2]; rfl⟩
        · rw [List.getElem?_set_ne hin]
          exact h2 i (by omega)
      · exact fun l e => by cases e

theorem decode_prog_image_out {B : Prop} {s0 : Ctx} (hB : ∀ s, Onward s0 s → (takeBytes 16 s).1.sum = 256 → B) {feof : Ctx → Bool} (hf : EofOk feof) {mem : JpegMem} {cm : Nat → Bool} :
    Outc (JE B) (decode_prog_image mem cm feof (Jst.start s0)) fun r => ∀ j', r = some j' → ∃ D, DimsOk D ∧ JstS B j' ∧ FrameS D j' := by
  unfold decode_prog_image
  have hs := JstS.start B s0
  have J : JstS B { Jst.start s0 with restart := 0, jfif := false, app14 := -1, e := { (Jst.start s0).e with marker := 0xFF } } := ⟨hs.dcl, hs.dc, hs.acl, hs.ac, hs.dql, hs.dq, hs.fl, hs.f, hs.cl, hs.c, hs.ol⟩
  have ho : ∀ o ∈ ({ Jst.start s0 with restart := 0, jfif := false, app14 := -1, e := { (Jst.start s0).e with marker := 0xFF } } : Jst).order, o = 0 := fun o h => List.eq_of_mem_replicate h
  have h0 : Onward s0 ({ Jst.start s0 with restart := 0, jfif := false, app14 := -1, e := { (Jst.start s0).e with marker := 0xFF } } : Jst).e.s := Onward.refl _
  dsimp only
  generalize ({ Jst.start s0 with restart := 0, jfif := false, app14 := -1, e := { (Jst.start s0).e with marker := 0xFF } } : Jst) = j at J ho h0 ⊢
  refine Outc.bind (get_marker_out j) fun r hr => ?_
  obtain ⟨m1, j1⟩ := r
  obtain ⟨e1, h1, o1, _⟩ := hr
  dsimp only at h1 ⊢
  subst h1
  split
  · exact fun j' e => by cases e
  · refine Outc.bind (get_marker_out _) fun r hr => ?_
    obtain ⟨m2, j2⟩ := r
    obtain ⟨e2, h2, o2, _⟩ := hr
    dsimp only at h2 o2 ⊢
    subst h2
    refine Outc.bind (headerLoop_out hB hf _ _ _ (by show Ctx.left e2.s < e2.s.fuel + 1; have := left_fuel e2.s; omega) (J.ent e2) ((h0.trans o1).trans o2)) fun r hr => ?_
    cases r with
    | none => exact fun j' e => by cases e
    | some t =>
      obtain ⟨m3, j3⟩ := t
      have st3 := hr m3 j3 rfl
      dsimp only
      refine Outc.bind (process_frame_header_out st3.s (by rw [st3.kept.order]; exact ho)) fun r hr => ?_
      cases r with
      | none => exact fun j' e => by cases e
      | some j4 =>
        obtain ⟨D, hD, J4, F4, o4⟩ := hr j4 rfl
        refine Outc.bind (coefPlanes_out hD J4 F4) fun r hr => ?_
        cases r with
        | none => exact fun j' e => by cases e
        | some l =>
          obtain ⟨c1, c2⟩ := hr l rfl
          refine Outc.bind (get_marker_out j4) fun r hr => ?_
          obtain ⟨m5, j5⟩ := r
          obtain ⟨e5, h5, o5, _⟩ := hr
          dsimp only at h5 ⊢
          subst h5
          refine (progLoop_out hB hf hD _ _ _ (by show Ctx.left e5.s < e5.s.fuel + 1; have := left_fuel e5.s; omega)
            ⟨J4.ent e5, F4.kept (Kept.ent _ _), c1, c2, le_rfl, by show 0 ≤ 63; decide, by show 0 ≤ 13; decide⟩ ?_).mono fun r hr j' e => ?_
          · exact ((((h0.trans o1).trans o2).trans st3.on).trans o4).trans o5
          · exact ⟨D, hD, hr j' e⟩

theorem load_prog_image_out {B : Prop} {s0 : Ctx} (hB : ∀ s, Onward s0 s → (takeBytes 16 s).1.sum = 256 → B) {feof : Ctx → Bool} (hf : EofOk feof) (mem : JpegMem) (cm : Nat → Bool) :
    Outc (JE B) (load_prog_image mem cm feof s0) fun r => ∀ L, r = some L → GoodImage L := by
  unfold load_prog_image
  refine Outc.bind (decode_prog_image_out hB hf) fun r hr => ?_
  cases r with
  | none => exact fun L e => by cases e
  | some j =>
    obtain ⟨D, hD, J, F⟩ := hr j rfl
    exact jpeg_pixels_out hD J F mem

end FlatCV
