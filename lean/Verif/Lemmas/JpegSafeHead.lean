/-
The JPEG decoder on arbitrary files: the headers.
-/
import Verif.Lemmas.JpegSafeBlock

namespace FlatCV
open Model

/-- A component. -/
structure CompS (c : JComp) : Prop where
  hd : c.hd ≤ 3
  ha : c.ha ≤ 3
  tq : c.tq ≤ 3
  pred : -2147483648 ≤ c.pred ∧ c.pred ≤ 2147483647
  data : c.data.length = c.w2 * c.h2

/-- The tables and components of the decoder. -/
structure JstS (B : Prop) (j : Jst) : Prop where
  dcl : j.huffDc.length = 4
  dc : ∀ h ∈ j.huffDc, HuffS B h
  acl : j.huffAc.length = 4
  ac : ∀ h ∈ j.huffAc, HuffS B h
  dql : j.dequant.length = 4
  dq : ∀ d ∈ j.dequant, DqS d
  fl : j.fastAc.length = 4
  f : ∀ f ∈ j.fastAc, FacS f
  cl : j.comps.length = 4
  c : ∀ c ∈ j.comps, CompS c
  ol : j.order.length = 4

theorem JstS.start (B : Prop) (s : Ctx) : JstS B (Jst.start s) where
  dcl := List.length_replicate
  dc := fun h hh => by rw [List.eq_of_mem_replicate hh]; exact huffS_zero B
  acl := List.length_replicate
  ac := fun h hh => by rw [List.eq_of_mem_replicate hh]; exact huffS_zero B
  dql := List.length_replicate
  dq := fun d hd => by
    rw [List.eq_of_mem_replicate hd]
    exact ⟨List.length_replicate, fun x hx => by rw [List.eq_of_mem_replicate hx]; decide⟩
  fl := List.length_replicate
  f := fun f hf => by rw [List.eq_of_mem_replicate hf]; exact facS_zero
  cl := List.length_replicate
  c := fun c hc => by
    rw [List.eq_of_mem_replicate hc]
    exact ⟨by decide, by decide, by decide, by decide, rfl⟩
  ol := List.length_replicate

theorem JstS.ent {B : Prop} {j : Jst} (h : JstS B j) (e : Ent) : JstS B { j with e := e } := ⟨h.dcl, h.dc, h.acl, h.ac, h.dql, h.dq, h.fl, h.f, h.cl, h.c, h.ol⟩

theorem JstS.at {B : Prop} {j : Jst} (h : JstS B j) (s : Ctx) : JstS B (j.at s) := h.ent _

theorem mem_set_all {α : Type} {P : α → Prop} {l : List α} {i : Nat} {a : α} (h : ∀ x ∈ l, P x) (ha : P a) : ∀ x ∈ l.set i a, P x := by
  intro x hx
  rcases List.mem_or_eq_of_mem_set hx with h' | h'
  · exact h x h'
  · rw [h']; exact ha

/-- What reading tables leaves as it is. -/
structure Kept (j j' : Jst) : Prop where
  comps : j'.comps = j.comps
  imgX : j'.imgX = j.imgX
  imgY : j'.imgY = j.imgY
  imgN : j'.imgN = j.imgN
  hMax : j'.hMax = j.hMax
  vMax : j'.vMax = j.vMax
  mcuX : j'.mcuX = j.mcuX
  mcuY : j'.mcuY = j.mcuY
  order : j'.order = j.order
  progressive : j'.progressive = j.progressive

theorem Kept.refl (j : Jst) : Kept j j := ⟨rfl, rfl, rfl, rfl, rfl, rfl, rfl, rfl, rfl, rfl⟩

theorem Kept.trans {a b c : Jst} (h : Kept a b) (h' : Kept b c) : Kept a c :=
  ⟨h'.comps.trans h.comps, h'.imgX.trans h.imgX, h'.imgY.trans h.imgY, h'.imgN.trans h.imgN, h'.hMax.trans h.hMax, h'.vMax.trans h.vMax, h'.mcuX.trans h.mcuX,
    h'.mcuY.trans h.mcuY, h'.order.trans h.order, h'.progressive.trans h.progressive⟩

theorem Kept.ent (j : Jst) (e : Ent) : Kept j { j with e := e } := ⟨rfl, rfl, rfl, rfl, rfl, rfl, rfl, rfl, rfl, rfl⟩

/-- A step in the headers. -/
structure Step (B : Prop) (j j' : Jst) : Prop where
  s : JstS B j'
  on : Onward j.e.s j'.e.s
  kept : Kept j j'

theorem Step.trans {B : Prop} {a b c : Jst} (h : Step B a b) (h' : Step B b c) : Step B a c := ⟨h'.s, h.on.trans h'.on, h.kept.trans h'.kept⟩

theorem Step.at {B : Prop} {j : Jst} (h : JstS B j) {s : Ctx} (hs : Onward j.e.s s) : Step B j (j.at s) := ⟨h.at s, hs, Kept.ent _ _⟩

theorem get_marker_out {E : Fault → Prop} (j : Jst) :
    Outc E (get_marker j) fun r => ∃ e', r.2 = { j with e := e' } ∧ Onward j.e.s e'.s ∧ (r.1 = 0xFF → Ctx.left e'.s + 1 ≤ Ctx.left j.e.s ∨ Ctx.left j.e.s = 0) := by
  unfold get_marker
  split
  · rename_i h
    exact ⟨_, rfl, Onward.refl _, fun h' => absurd h' h⟩
  · split
    · refine ⟨_, rfl, get8_reads _, fun _ => ?_⟩
      rcases get8_left j.e.s with h | h
      · exact Or.inl h
      · exact Or.inr h.1
    · rename_i h1 h2
      have hff : (get8 j.e.s).1 = 0xFF := by simpa using h2
      have hp := get8_pos (s := j.e.s) (by rw [hff]; decide)
      have hf := left_fuel j.e.s
      refine Outc.bind (afterFF_out _ _ (by omega)) fun r hr => ?_
      obtain ⟨x, s⟩ := r
      have := hr.left
      exact ⟨_, rfl, (get8_reads _).trans hr, fun _ => Or.inl (by show Ctx.left s + 1 ≤ _; dsimp only at this; omega)⟩

/-! ### Tables -/

attribute [local irreducible] j_build_fast_ac

theorem dqtTable_out {E : Fault → Prop} {B : Prop} {j : Jst} (J : JstS B j) :
    Outc E (dqtTable j) fun r => ∀ j' b, r = some (j', b) → Step B j j' := by
  unfold dqtTable
  rcases hg : get8 j.e.s with ⟨q, s⟩
  have hs : Onward j.e.s s := by have := get8_reads j.e.s; rw [hg] at this; exact this
  dsimp only
  by_cases hp : q.toNat / 16 ≠ 0 ∧ q.toNat / 16 ≠ 1
  · rw [if_pos hp]
    exact fun j' b e => by cases e
  · rw [if_neg hp]
    by_cases ht : 3 < q.toNat % 16
    · rw [if_pos ht]
      exact fun j' b e => by cases e
    · rw [if_neg ht]
      have hv : ∀ n, ∃ vals s', (if q.toNat / 16 ≠ 0 then takeWords n s else takeBytes n s) = (vals, s') ∧ vals.length = n ∧ (∀ x ∈ vals, x ≤ 65535) ∧ Onward s s' := by
        intro n
        split
        · exact ⟨_, _, rfl, takeWords_length n s, takeWords_le n s, takeWords_reads n s⟩
        · exact ⟨_, _, rfl, js_takeBytes_len n s, fun x hx => (takeBytes_le n s x hx).trans (by decide), takeBytes_reads n s⟩
      obtain ⟨vals, s', e, hl, hle, hs'⟩ := hv 64
      rw [e]
      dsimp only
      refine Outc.bind (js_rdIn (by rw [J.dql]; omega)) fun old hold => ?_
      have hD := J.dq old (js_mem hold)
      refine Outc.bind (P := DqS) (Outc.forN (fun _ (t : List Nat) => DqS t) hD fun i hi t hT => ?_) fun tab hT => ?_
      · refine Outc.bind (js_rdIn (by rw [zag_len]; omega)) fun z hz => ?_
        refine Outc.bind (js_rdIn (by rw [hl]; omega)) fun v hv => ?_
        refine (js_wrIn (by rw [hT.len]; exact zag_lt z (js_mem hz))).mono fun r hr => ?_
        subst hr
        exact ⟨by rw [List.length_set]; exact hT.len, mem_set_all hT.le (hle v (js_mem hv))⟩
      · refine Outc.bind (js_wrIn (by rw [J.dql]; omega)) fun dq hdq => ?_
        subst hdq
        refine Outc.pure fun j' b e => ?_
        injection e with e
        injection e with e _
        subst e
        exact ⟨⟨J.dcl, J.dc, J.acl, J.ac, by rw [List.length_set]; exact J.dql, mem_set_all J.dq hT, J.fl, J.f, J.cl, J.c, J.ol⟩, hs.trans hs', ⟨rfl, rfl, rfl, rfl, rfl, rfl, rfl, rfl, rfl, rfl⟩⟩

theorem dqtLoop_out {E : Fault → Prop} {B : Prop} : ∀ (n : Nat) (L : Int) (j : Jst), L < n → 0 < n → JstS B j → Outc E (dqtLoop n L j) fun r => ∀ j', r = some j' → Step B j j' := by
  intro n
  induction n with
  | zero => intro L j _ h; omega
  | succ n ih =>
    intro L j hL _ J
    unfold dqtLoop
    split
    · refine Outc.bind (dqtTable_out J) fun r hr => ?_
      cases r with
      | none => exact fun j' e => by cases e
      | some p =>
        obtain ⟨j1, b⟩ := p
        have h1 := hr j1 b rfl
        refine (ih _ _ ?_ ?_ h1.s).mono fun r hr j' e => h1.trans (hr j' e)
        · split <;> omega
        · omega
    · split
      · refine Outc.pure fun j' e => ?_
        injection e with e
        subst e
        exact ⟨J, Onward.refl _, Kept.refl _⟩
      · exact fun j' e => by cases e

theorem dhtTable_out {E : Fault → Prop} {B : Prop} {s0 : Ctx} (hB : ∀ s, Onward s0 s → (takeBytes 16 s).1.sum = 256 → B) {j : Jst} (J : JstS B j) (h0 : Onward s0 j.e.s) :
    Outc E (dhtTable j) fun r => ∀ j' n, r = some (j', n) → Step B j j' := by
  unfold dhtTable
  rcases hg : get8 j.e.s with ⟨q, s⟩
  have hs : Onward j.e.s s := by have := get8_reads j.e.s; rw [hg] at this; exact this
  dsimp only
  by_cases hp : 1 < q.toNat / 16 ∨ 3 < q.toNat % 16
  · rw [if_pos hp]
    exact fun j' b e => by cases e
  · rw [if_neg hp]
    have hB' := hB s (h0.trans hs)
    have hl := js_takeBytes_len 16 s
    have hR := takeBytes_reads 16 s
    rcases htb : takeBytes 16 s with ⟨sizes, s2⟩
    rw [htb] at hB' hl hR
    dsimp only at hB' hl hR ⊢
    by_cases h256 : 256 < sizes.sum
    · rw [if_pos h256]
      exact fun j' b e => by cases e
    · rw [if_neg h256]
      refine Outc.bind (P := HuffS B) ?_ fun h H => ?_
      · refine (js_rdIn (by split <;> [rw [J.dcl]; rw [J.acl]] <;> omega)).mono fun h hh => ?_
        have := js_mem hh
        split at this
        · exact J.dc h this
        · exact J.ac h this
      · refine Outc.bind (build_out H hl (by omega) hB') fun r hr => ?_
        cases r with
        | none => exact fun j' b e => by cases e
        | some h' =>
          have H' := hr h' rfl
          have hvl := js_takeBytes_len sizes.sum s2
          have hvle := takeBytes_le sizes.sum s2
          have hvR := takeBytes_reads sizes.sum s2
          dsimp only
          rcases htv : takeBytes sizes.sum s2 with ⟨vals, s3⟩
          rw [htv] at hvl hvle hvR
          dsimp only at hvl hvle hvR ⊢
          refine Outc.bind (P := fun v : List Nat => v.length = 256 ∧ ∀ x ∈ v, x ≤ 255) (Outc.forN (fun _ (v : List Nat) => v.length = 256 ∧ ∀ x ∈ v, x ≤ 255) ⟨H'.lv, H'.v⟩ fun i hi v hv => ?_) fun values hvs => ?_
          · refine Outc.bind (js_rdIn (by omega)) fun x hx => ?_
            refine (js_wrIn (by omega)).mono fun r hr => ?_
            subst hr
            exact ⟨by rw [List.length_set]; exact hv.1, mem_set_all hv.2 (hvle x (js_mem hx))⟩
          · have H2 : HuffS B { h' with values := values } := by
              refine ⟨H'.lf, H'.lc, hvs.1, H'.ls, H'.lm, H'.ld, H'.f, hvs.2, ?_⟩
              rcases H'.slow with h | h
              · exact Or.inl h
              · exact Or.inr ⟨h.top, h.found, h.short⟩
            have hon : Onward j.e.s s3 := (hs.trans hR).trans hvR
            by_cases htc : q.toNat / 16 = 0
            · rw [if_pos htc]
              refine Outc.bind (js_wrIn (by rw [J.dcl]; omega)) fun l hl => ?_
              subst hl
              refine Outc.pure fun j' n e => ?_
              injection e with e
              injection e with e _
              subst e
              exact ⟨⟨by rw [List.length_set]; exact J.dcl, mem_set_all J.dc H2, J.acl, J.ac, J.dql, J.dq, J.fl, J.f, J.cl, J.c, J.ol⟩, hon, ⟨rfl, rfl, rfl, rfl, rfl, rfl, rfl, rfl, rfl, rfl⟩⟩
            · rw [if_neg htc]
              refine Outc.bind (js_wrIn (by rw [J.acl]; omega)) fun l hl => ?_
              refine Outc.bind (build_fast_ac_out H2) fun fac hF => ?_
              refine Outc.bind (js_wrIn (by rw [J.fl]; omega)) fun fl hfl => ?_
              subst hl
              subst hfl
              refine Outc.pure fun j' n e => ?_
              injection e with e
              injection e with e _
              subst e
              exact ⟨⟨J.dcl, J.dc, by rw [List.length_set]; exact J.acl, mem_set_all J.ac H2, J.dql, J.dq, by rw [List.length_set]; exact J.fl, mem_set_all J.f hF, J.cl, J.c, J.ol⟩, hon,
                ⟨rfl, rfl, rfl, rfl, rfl, rfl, rfl, rfl, rfl, rfl⟩⟩

theorem dhtLoop_out {E : Fault → Prop} {B : Prop} {s0 : Ctx} (hB : ∀ s, Onward s0 s → (takeBytes 16 s).1.sum = 256 → B) :
    ∀ (n : Nat) (L : Int) (j : Jst), L < n → 0 < n → JstS B j → Onward s0 j.e.s → Outc E (dhtLoop n L j) fun r => ∀ j', r = some j' → Step B j j' := by
  intro n
  induction n with
  | zero => intro L j _ h; omega
  | succ n ih =>
    intro L j hL _ J h0
    unfold dhtLoop
    split
    · refine Outc.bind (dhtTable_out hB J h0) fun r hr => ?_
      cases r with
      | none => exact fun j' e => by cases e
      | some p =>
        obtain ⟨j1, k⟩ := p
        have h1 := hr j1 k rfl
        refine (ih _ _ ?_ ?_ h1.s (h0.trans h1.on)).mono fun r hr j' e => h1.trans (hr j' e)
        · omega
        · omega
    · split
      · refine Outc.pure fun j' e => ?_
        injection e with e
        subst e
        exact ⟨J, Onward.refl _, Kept.refl _⟩
      · exact fun j' e => by cases e

theorem appSegment_out {B : Prop} {j : Jst} (J : JstS B j) (m : Nat) {j' : Jst} (h : appSegment j m = some j') : Step B j j' ∧ Ctx.left j'.e.s + 1 ≤ Ctx.left j.e.s := by
  unfold appSegment at h
  have hR := get16_reads j.e.s
  have hpos := get16_pos (s := j.e.s)
  rcases hg : get16be j.e.s with ⟨L, s⟩
  rw [hg] at h hR hpos
  dsimp only at h hR hpos
  by_cases hL : L < 2
  · rw [if_pos hL] at h
    cases h
  · rw [if_neg hL] at h
    have hp := hpos (by omega)
    have fin : ∀ (s' : Ctx) (b : Bool) (a : Int), Onward s s' → Step B j { (j.at s') with jfif := b, app14 := a } ∧ Ctx.left s' + 1 ≤ Ctx.left j.e.s := fun s' b a hs' =>
      ⟨⟨⟨J.dcl, J.dc, J.acl, J.ac, J.dql, J.dq, J.fl, J.f, J.cl, J.c, J.ol⟩, hR.trans hs', ⟨rfl, rfl, rfl, rfl, rfl, rfl, rfl, rfl, rfl, rfl⟩⟩, by have := hs'.left; omega⟩
    have r5 := takeBytes_reads 5 s
    have r6 := takeBytes_reads 6 s
    have r7 := takeBytes_reads 6 (takeBytes 6 s).2
    rcases h5 : takeBytes 5 s with ⟨t5, s5⟩
    rcases h6 : takeBytes 6 s with ⟨t6, s6⟩
    rw [h6] at r7
    rcases h7 : takeBytes 6 s6 with ⟨t7, s7⟩
    rw [h5] at h r5
    rw [h6] at h r6
    dsimp only at h r5 r6 r7
    rw [h7] at h r7
    dsimp only at h r7
    split at h
    · injection h with h
      subst h
      exact fin _ _ j.app14 (r5.trans (skip_reads _ _))
    · split at h
      · split at h
        · injection h with h
          subst h
          exact fin _ j.jfif _ ((r6.trans r7).trans (skip_reads _ _))
        · injection h with h
          subst h
          exact fin _ j.jfif j.app14 (r6.trans (skip_reads _ _))
      · injection h with h
        subst h
        exact fin _ j.jfif j.app14 (skip_reads _ _)

theorem process_marker_out {E : Fault → Prop} {B : Prop} {s0 : Ctx} (hB : ∀ s, Onward s0 s → (takeBytes 16 s).1.sum = 256 → B) {j : Jst} (J : JstS B j) (h0 : Onward s0 j.e.s) (m : Nat) :
    Outc E (process_marker j m) fun r => ∀ j', r = some j' → Step B j j' ∧ Ctx.left j'.e.s + 1 ≤ Ctx.left j.e.s := by
  unfold process_marker
  have hR := get16_reads j.e.s
  have hpos := get16_pos (s := j.e.s)
  rcases hg : get16be j.e.s with ⟨a, s⟩
  rw [hg] at hR hpos
  dsimp only at hR hpos ⊢
  have J' : JstS B (j.at s) := J.at s
  split
  · exact fun j' e => by cases e
  · split
    · split
      · exact fun j' e => by cases e
      · rename_i ha
        refine Outc.pure fun j' e => ?_
        injection e with e
        subst e
        have h2 := get16_reads s
        have := hpos (by omega)
        refine ⟨⟨⟨J.dcl, J.dc, J.acl, J.ac, J.dql, J.dq, J.fl, J.f, J.cl, J.c, J.ol⟩, hR.trans h2, ⟨rfl, rfl, rfl, rfl, rfl, rfl, rfl, rfl, rfl, rfl⟩⟩, ?_⟩
        have := h2.left
        show Ctx.left (get16be s).2 + 1 ≤ _
        omega
    · split
      · by_cases ha : a = 0
        · subst ha
          exact fun j' e => by cases e
        · refine (dqtLoop_out _ _ _ (by push_cast; omega) (by omega) J').mono fun r hr j' e => ?_
          have h1 := hr j' e
          have h2 := h1.on.left
          have h3 := hpos ha
          refine ⟨(Step.at J hR).trans h1, ?_⟩
          have h4 : Ctx.left (j.at s).e.s = Ctx.left s := rfl
          omega
      · split
        · by_cases ha : a = 0
          · subst ha
            exact fun j' e => by cases e
          · refine (dhtLoop_out hB _ _ _ (by push_cast; omega) (by omega) J' (h0.trans hR)).mono fun r hr j' e => ?_
            have h1 := hr j' e
            have h2 := h1.on.left
            have h3 := hpos ha
            refine ⟨(Step.at J hR).trans h1, ?_⟩
            have h4 : Ctx.left (j.at s).e.s = Ctx.left s := rfl
            omega
        · split
          · exact fun j' e => appSegment_out J m e
          · exact fun j' e => by cases e

/-- `feof` is true once a read has found nothing. -/
def EofOk (feof : Ctx → Bool) : Prop := ∀ s : Ctx, s.live = false → s.buf = [] → feof s = true

theorem eof_left {feof : Ctx → Bool} (hf : EofOk feof) {s : Ctx} (h : ¬ at_eof feof s = true) : Ctx.left s ≠ 0 := by
  intro h0
  unfold Ctx.left at h0
  have h1 : s.live = false := by
    cases hl : s.live with
    | false => rfl
    | true => rw [hl] at h0; simp at h0
  have h2 : Ctx.rest s = [] := List.eq_nil_of_length_eq_zero (by omega)
  unfold Ctx.rest at h2
  have h3 : s.buf = [] := (List.append_eq_nil_iff.mp h2).1
  apply h
  unfold at_eof
  rw [hf s h1 h3, h1]
  rfl

theorem headerLoop_out {E : Fault → Prop} {B : Prop} {s0 : Ctx} (hB : ∀ s, Onward s0 s → (takeBytes 16 s).1.sum = 256 → B) {feof : Ctx → Bool} (hf : EofOk feof) :
    ∀ (n m : Nat) (j : Jst), Ctx.left j.e.s < n → JstS B j → Onward s0 j.e.s →
      Outc E (headerLoop feof n m j) fun r => ∀ m' j', r = some (m', j') → Step B j j' := by
  intro n
  induction n with
  | zero => intro m j h; omega
  | succ n ih =>
    intro m j hl J h0
    unfold headerLoop
    split
    · refine Outc.pure fun m' j' e => ?_
      injection e with e
      injection e with _ e
      subst e
      exact ⟨J, Onward.refl _, Kept.refl _⟩
    · refine Outc.bind (process_marker_out hB J h0 m) fun r hr => ?_
      cases r with
      | none => exact fun m' j' e => by cases e
      | some j1 =>
        obtain ⟨h1, h2⟩ := hr j1 rfl
        refine Outc.bind (get_marker_out j1) fun r hr => ?_
        obtain ⟨m2, j2⟩ := r
        obtain ⟨e2, hj2, hon2, _⟩ := hr
        dsimp only at hj2 ⊢
        have st2 : Step B j1 j2 := by rw [hj2]; exact ⟨h1.s.ent _, hon2, Kept.ent _ _⟩
        refine Outc.bind (P := fun st : Nat × Jst => Step B j1 st.2)
          (Outc.whileF (fun n (st : Nat × Jst) => Step B j1 st.2 ∧ (st.1 = 0xFF → Ctx.left st.2.e.s + 2 ≤ n) ∧ 1 ≤ n) (fun s h => by omega) (fun n st h => ?_) _ (m2, j2)
            ⟨st2, fun _ => by have := left_fuel j2.e.s; show Ctx.left j2.e.s + 2 ≤ _; omega, by omega⟩) fun st hst => ?_
        · obtain ⟨k1, k2, k3⟩ := h
          by_cases hm : st.1 = 0xFF
          · rw [if_pos hm]
            by_cases he : at_eof feof st.2.e.s = true
            · rw [if_pos he]
              exact Outc.pure k1
            · rw [if_neg he]
              have hne := eof_left hf he
              refine Outc.bind (get_marker_out st.2) fun r hr => ?_
              obtain ⟨e3, hj3, hon3, hff⟩ := hr
              refine Outc.pure ⟨?_, fun hm' => ?_, ?_⟩
              · show Step B j1 r.2
                rw [hj3]
                exact k1.trans ⟨k1.s.ent _, hon3, Kept.ent _ _⟩
              · have := hff hm'
                have := k2 hm
                show Ctx.left r.2.e.s + 2 ≤ n
                rw [hj3]
                show Ctx.left e3.s + 2 ≤ n
                omega
              · have := k2 hm
                show 1 ≤ n
                omega
          · rw [if_neg hm]
            exact Outc.pure k1
        · obtain ⟨m3, j3⟩ := st
          dsimp only at hst ⊢
          split
          · exact fun m' j' e => by cases e
          · have st3 := h1.trans hst
            have := hst.on.left
            exact (ih m3 j3 (by omega) st3.s (h0.trans st3.on)).mono fun r hr m' j' e => st3.trans (hr m' j' e)

end FlatCV
