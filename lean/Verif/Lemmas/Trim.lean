import Verif.Model.Trim
import Verif.Spec.Trim
import Verif.Spec.Call
import Verif.Lemmas.Geometry
import Verif.Lemmas.Mem

namespace FlatCV
open Model Spec

/-- Rule for `while` loops: with a measure that decreases, the loop ends in `S`. -/
theorem whileFuel_ok {σ : Type} {fuel : Nat} {s : σ} {step : σ → CM (σ × Bool)}
    (I : σ → Prop) (μ : σ → Nat) (S : σ → Prop) (h0 : I s) (hf : μ s < fuel)
    (hstep : ∀ s, I s → Ok (step s) (fun r => if r.2 then S r.1 else I r.1 ∧ μ r.1 < μ s)) :
    Ok (whileFuel fuel s step) S := by
  induction fuel generalizing s with
  | zero => omega
  | succ n ih =>
    unfold whileFuel
    refine Ok.bind (hstep s h0) ?_
    rintro ⟨s', stop⟩ hr
    cases stop with
    | true => exact Ok.pure (by simpa using hr)
    | false =>
      simp only [Bool.false_eq_true, if_false] at hr ⊢
      exact ih hr.1 (by omega)

/-- Early-exit conjunction loops. -/
theorem forBreak_all {n i : Nat} {body : Nat → Bool → CM (Bool × Bool)} (G : Nat → Prop)
    (hb : ∀ j, i ≤ j → j < i + n → Ok (body j true) (fun r => r.2 = !r.1 ∧ (r.1 = true ↔ G j))) :
    Ok (forBreak n i true body) (fun r => r = true ↔ ∀ j, i ≤ j → j < i + n → G j) := by
  refine (forBreak_ok (fun k (b : Bool) => b = true ∧ ∀ j, i ≤ j → j < k → G j)
    (fun b => b = false ∧ ∃ j, i ≤ j ∧ j < i + n ∧ ¬ G j) ⟨rfl, fun j _ _ => by omega⟩ ?_).mono ?_
  · rintro j h1 h2 b ⟨rfl, hall⟩
    refine (hb j h1 h2).mono ?_
    rintro ⟨b1, b2⟩ ⟨e, hbi⟩
    simp only at e hbi
    subst e
    cases b1 with
    | true =>
      simp only [Bool.not_true, Bool.false_eq_true, if_false]
      refine ⟨trivial, fun k hk1 hk2 => ?_⟩
      by_cases e : k = j
      · subst e; exact hbi.1 rfl
      · exact hall k hk1 (by omega)
    | false =>
      simp only [Bool.not_false, if_true]
      exact ⟨trivial, j, h1, h2, fun hg => by have := hbi.2 hg; cases this⟩
  · rintro b (⟨rfl, j, h1, h2, hn⟩ | ⟨rfl, hall⟩)
    · simp only [Bool.false_eq_true, false_iff]
      exact fun h => hn (h j h1 h2)
    · simp only [true_iff]
      exact hall

section
variable {good : UInt8 → UInt8 → Bool} {d : List UInt8} {w h ch : Nat}
  {g : Nat → Nat → Nat → UInt8}

/-- The pixels the code reads are `g`. -/
def Reads (d : List UInt8) (w h ch : Nat) (g : Nat → Nat → Nat → UInt8) : Prop :=
  ∀ x y c, x < w → y < h → c < ch → rdIn d (trimIdx w ch y x + c) = .ok (g x y c)

theorem matchBy_ok (hg : Reads d w h ch g) {x y x' y' : Nat} (hx : x < w) (hy : y < h)
    (hx' : x' < w) (hy' : y' < h) :
    Ok (matchBy good d ch (trimIdx w ch y x) (trimIdx w ch y' x'))
      (fun r => r = true ↔ ∀ c, c < ch → good (g x y c) (g x' y' c) = true) := by
  refine (forBreak_all (fun c => good (g x y c) (g x' y' c) = true) ?_).mono ?_
  · intro c _ hc
    rw [hg x y c hx hy (by omega)]
    simp only [ok_bind]
    rw [hg x' y' c hx' hy' (by omega)]
    exact Ok.pure' ⟨rfl, Iff.rfl⟩
  · intro r hr
    rw [hr]
    exact ⟨fun h c hc => h c (by omega) (by omega), fun h c _ hc => h c (by omega)⟩

/-- The boolean comparison as a relation. -/
def Rel (good : UInt8 → UInt8 → Bool) (a b : UInt8) : Prop := good a b = true

theorem colMatches_ok (hg : Reads d w h ch g) {x t b : Nat} (hx : x < w) (htb : t < b)
    (hb : b ≤ h) :
    Ok (colMatches good d w ch x t b) (fun r => r = true ↔ ColLike (Rel good) g ch x t b) := by
  refine (forBreak_all (fun y => ∀ c, c < ch → good (g x y c) (g x t c) = true) ?_).mono ?_
  · intro y h1 h2
    refine Ok.bind (matchBy_ok hg hx (by omega) hx (by omega)) ?_
    intro r hr
    exact Ok.pure' ⟨rfl, hr⟩
  · intro r hr
    rw [hr]
    exact ⟨fun h y h1 h2 => h y h1 (by omega), fun h y h1 h2 => h y h1 (by omega)⟩

theorem rowMatches_ok (hg : Reads d w h ch g) {y l r : Nat} (hy : y < h) (hlr : l < r)
    (hr : r ≤ w) :
    Ok (rowMatches good d w ch y l r) (fun v => v = true ↔ RowLike (Rel good) g ch y l r) := by
  refine (forBreak_all (fun x => ∀ c, c < ch → good (g x y c) (g l y c) = true) ?_).mono ?_
  · intro x h1 h2
    refine Ok.bind (matchBy_ok hg (by omega) hy (by omega) hy) ?_
    intro r hr
    exact Ok.pure' ⟨rfl, hr⟩
  · intro v hv
    rw [hv]
    exact ⟨fun h x h1 h2 => h x h1 (by omega), fun h x h1 h2 => h x h1 (by omega)⟩

theorem trimLeft_ok (hg : Reads d w h ch g) (hw : 0 < w) (hh : 0 < h) (uw : IsU32 w) :
    Ok (trimLeft good d w h ch) (fun l => l < w ∧
      (∀ x, x < l → ColLike (Rel good) g ch x 0 h) ∧
      (l + 1 = w ∨ ¬ ColLike (Rel good) g ch l 0 h)) := by
  unfold IsU32 at uw
  refine whileFuel_ok (fun l => l < w ∧ ∀ x, x < l → ColLike (Rel good) g ch x 0 h)
    (fun l => w - l) _ ⟨hw, fun x hx => by omega⟩ (by omega) ?_
  rintro l ⟨hl, hall⟩
  rw [if_pos hl]
  refine Ok.bind (colMatches_ok hg hl hh le_rfl) ?_
  intro b hb
  rw [u32sub_eq (by omega) (by omega)]
  by_cases hc : (b && decide (w - l > 1)) = true
  · rw [if_pos hc]
    simp only [Bool.and_eq_true, decide_eq_true_eq] at hc
    refine Ok.pure' ?_
    simp only [Bool.false_eq_true, if_false]
    rw [u32_eq (by omega)]
    refine ⟨⟨by omega, fun x hx => ?_⟩, by omega⟩
    by_cases e : x = l
    · subst e; exact hb.1 hc.1
    · exact hall x (by omega)
  · rw [if_neg hc]
    refine Ok.pure' ?_
    simp only [if_true]
    refine ⟨hl, hall, ?_⟩
    by_cases e : l + 1 = w
    · exact Or.inl e
    · refine Or.inr fun hcl => hc ?_
      simp only [Bool.and_eq_true, decide_eq_true_eq]
      exact ⟨hb.2 hcl, by omega⟩

theorem trimRight_ok (hg : Reads d w h ch g) (hh : 0 < h) (uw : IsU32 w) {l : Nat} (hl : l < w) :
    Ok (trimRight good d w h ch l) (fun r => l < r ∧ r ≤ w ∧
      (∀ x, r ≤ x → x < w → ColLike (Rel good) g ch x 0 h) ∧
      (r = l + 1 ∨ ¬ ColLike (Rel good) g ch (r - 1) 0 h)) := by
  unfold IsU32 at uw
  refine whileFuel_ok (fun r => l < r ∧ r ≤ w ∧ ∀ x, r ≤ x → x < w → ColLike (Rel good) g ch x 0 h)
    (fun r => r) _ ⟨hl, le_rfl, fun x hx => by omega⟩ (by omega) ?_
  rintro r ⟨hlr, hrw, hall⟩
  rw [if_pos hlr]
  rw [u32sub_eq (a := r) (b := 1) (by omega) (by omega), u32sub_eq (a := r) (b := l) (by omega) (by omega)]
  refine Ok.bind (colMatches_ok hg (by omega) hh le_rfl) ?_
  intro b hb
  by_cases hc : (b && decide (r - l > 1)) = true
  · rw [if_pos hc]
    simp only [Bool.and_eq_true, decide_eq_true_eq] at hc
    refine Ok.pure' ?_
    simp only [Bool.false_eq_true, if_false]
    refine ⟨⟨by omega, by omega, fun x hx hx2 => ?_⟩, by omega⟩
    by_cases e : x = r - 1
    · subst e; exact hb.1 hc.1
    · exact hall x (by omega) hx2
  · rw [if_neg hc]
    refine Ok.pure' ?_
    simp only [if_true]
    refine ⟨hlr, hrw, hall, ?_⟩
    by_cases e : r = l + 1
    · exact Or.inl e
    · refine Or.inr fun hcl => hc ?_
      simp only [Bool.and_eq_true, decide_eq_true_eq]
      exact ⟨hb.2 hcl, by omega⟩

theorem trimTop_ok (hg : Reads d w h ch g) (hh : 0 < h) (uh : IsU32 h) {l r : Nat} (hlr : l < r)
    (hr : r ≤ w) :
    Ok (trimTop good d w h ch l r) (fun t => t < h ∧
      (∀ y, y < t → RowLike (Rel good) g ch y l r) ∧
      (t + 1 = h ∨ ¬ RowLike (Rel good) g ch t l r)) := by
  unfold IsU32 at uh
  refine whileFuel_ok (fun t => t < h ∧ ∀ y, y < t → RowLike (Rel good) g ch y l r)
    (fun t => h - t) _ ⟨hh, fun x hx => by omega⟩ (by omega) ?_
  rintro t ⟨ht, hall⟩
  rw [u32sub_eq (by omega) (by omega)]
  by_cases h1 : h - t > 1
  · rw [if_pos ⟨ht, h1⟩]
    refine Ok.bind (rowMatches_ok hg ht hlr hr) ?_
    intro b hb
    cases b with
    | true =>
      rw [if_pos rfl]
      refine Ok.pure' ?_
      simp only [Bool.false_eq_true, if_false]
      rw [u32_eq (by omega)]
      refine ⟨⟨by omega, fun x hx => ?_⟩, by omega⟩
      by_cases e : x = t
      · subst e; exact hb.1 rfl
      · exact hall x (by omega)
    | false =>
      rw [if_neg (by simp)]
      refine Ok.pure' ?_
      simp only [if_true]
      exact ⟨ht, hall, Or.inr fun hcl => by have := hb.2 hcl; cases this⟩
  · rw [if_neg (by omega)]
    refine Ok.pure' ?_
    simp only [if_true]
    exact ⟨ht, hall, Or.inl (by omega)⟩

theorem trimBottom_ok (hg : Reads d w h ch g) (uh : IsU32 h) {l r t : Nat} (hlr : l < r)
    (hr : r ≤ w) (ht : t < h) :
    Ok (trimBottom good d w h ch l r t) (fun b => t < b ∧ b ≤ h ∧
      (∀ y, b ≤ y → y < h → RowLike (Rel good) g ch y l r) ∧
      (b = t + 1 ∨ ¬ RowLike (Rel good) g ch (b - 1) l r)) := by
  unfold IsU32 at uh
  refine whileFuel_ok
    (fun b => t < b ∧ b ≤ h ∧ ∀ y, b ≤ y → y < h → RowLike (Rel good) g ch y l r)
    (fun b => b) _ ⟨ht, le_rfl, fun x hx => by omega⟩ (by omega) ?_
  rintro b ⟨htb, hbh, hall⟩
  rw [u32sub_eq (a := b) (b := 1) (by omega) (by omega), u32sub_eq (a := b) (b := t) (by omega) (by omega)]
  by_cases h1 : b - t > 1
  · rw [if_pos ⟨htb, h1⟩]
    refine Ok.bind (rowMatches_ok hg (by omega) hlr hr) ?_
    intro v hv
    cases v with
    | true =>
      rw [if_pos rfl]
      refine Ok.pure' ?_
      simp only [Bool.false_eq_true, if_false]
      refine ⟨⟨by omega, by omega, fun x hx hx2 => ?_⟩, by omega⟩
      by_cases e : x = b - 1
      · subst e; exact hv.1 rfl
      · exact hall x (by omega) hx2
    | false =>
      rw [if_neg (by simp)]
      refine Ok.pure' ?_
      simp only [if_true]
      exact ⟨htb, hbh, hall, Or.inr fun hcl => by have := hv.2 hcl; cases this⟩
  · rw [if_neg (by omega)]
    refine Ok.pure' ?_
    simp only [if_true]
    exact ⟨htb, hbh, hall, Or.inl (by omega)⟩

theorem trimBox_ok (hg : Reads d w h ch g) (hw : 0 < w) (hh : 0 < h) (uw : IsU32 w)
    (uh : IsU32 h) :
    Ok (trimBox good d w h ch) (fun q =>
      TrimBox (Rel good) g w h ch q.1 q.2.1 q.2.2.1 q.2.2.2) := by
  unfold trimBox
  refine Ok.bind (trimLeft_ok hg hw hh uw) ?_
  rintro l ⟨hl, l1, l2⟩
  refine Ok.bind (trimRight_ok hg hh uw hl) ?_
  rintro r ⟨hlr, hr, r1, r2⟩
  refine Ok.bind (trimTop_ok hg hh uh hlr hr) ?_
  rintro t ⟨ht, t1, t2⟩
  refine Ok.bind (trimBottom_ok hg uh hlr hr ht) ?_
  rintro b ⟨htb, hb, b1, b2⟩
  exact Ok.pure' ⟨hlr, hr, htb, hb, l1, l2, r1, r2, t1, t2, b1, b2⟩

end

/-- What a trimming call does: it keeps the rectangle `[l, r) × [t, b)`. -/
def TrimsTo (m : HM (Option (Buf UInt8) × Int × Int)) (w ch : Nat) (d : List UInt8)
    (l r t b : Nat) : Prop :=
  ∀ hp, HOk m hp fun res hp' =>
    res.2.1 = ((r - l : Nat) : Int) ∧ res.2.2 = ((b - t : Nat) : Int) ∧
    match res.1 with
    | none => OutOfMemory hp hp'
    | some buf => FreshResult hp hp' buf ∧
        buf.cells = (Spec.crop w ch d l t (r - l) (b - t)).map some

theorem trimWith_trims {good : UInt8 → UInt8 → Bool} {P : Plat} {w h ch : Nat} {d : List UInt8}
    {g : Nat → Nat → Nat → UInt8} (im : Img P w h ch d) (hch : 0 < ch) (hw31 : w < 2147483648)
    (hh31 : h < 2147483648) (hg : Reads d w h ch g) :
    ∃ l r t b, TrimBox (Rel good) g w h ch l r t b ∧
      TrimsTo (trimWith good P d w h ch) w ch d l r t b := by
  obtain ⟨⟨l, r, t, b⟩, ebox, hbox⟩ := trimBox_ok (good := good) hg im.w_pos im.h_pos im.w_u32 im.h_u32
  simp only at hbox
  refine ⟨l, r, t, b, hbox, fun hp => ?_⟩
  have hw := im.w_pos
  have hh := im.h_pos
  have hsz : w * h * ch ≤ P.szMax := by rw [← im.len]; exact im.size
  have hwh : w * h ≤ P.szMax := le_trans (Nat.le_mul_of_pos_right _ hch) hsz
  have e1 : u32OfInt (w : Int) = w := u32OfInt_eq (by omega) (by omega)
  have e2 : u32OfInt (h : Int) = h := u32OfInt_eq (by omega) (by omega)
  have hg1 : ¬ w > P.szMax / h := P.guard_of_mul_le hh hwh
  have e3 : P.sz (w * h) = w * h := P.sz_eq' hwh
  have hg2 : ¬ w * h > P.szMax / ch := P.guard_of_mul_le hch hsz
  have e4 : P.sz (w * h * ch) = w * h * ch := P.sz_eq' hsz
  obtain ⟨hlr, hr, htb, hb, _, _, _, _, _, _, _, _⟩ := hbox
  unfold trimWith
  simp only [e1, e2, e3, e4, hg1, hg2, or_self, if_false]
  refine HOk.bind (P := fun q h' => q = (l, r, t, b) ∧ hp = h') (HOk.use (by simp) ?_) ?_
  · rw [ebox]; exact Ok.pure ⟨rfl, rfl⟩
  rintro _ _ ⟨rfl, rfl⟩
  simp only
  rw [u32sub_eq (a := r) (b := l) (by omega) (by omega), u32sub_eq (a := b) (b := t) (by omega) (by omega)]
  by_cases hall : l = 0 ∧ t = 0 ∧ r = w ∧ b = h
  · rw [if_pos hall]
    obtain ⟨rfl, rfl, rfl, rfl⟩ := hall
    have hR := allocFill_returns (n := r * b * ch)
      (fill := fun out => memcpyIn out 0 d 0 (r * b * ch)) (Q := fun c => c = d.map some) hp (by
        rw [memcpyIn_all d im.len.symm]; exact Ok.pure rfl)
    refine HOk.bind hR ?_
    intro res h' hres
    refine HOk.pure ⟨by simp, by simp, ?_⟩
    cases res with
    | none => exact hres
    | some buf =>
      refine ⟨hres.1, ?_⟩
      simp only [hres.2]
      congr 1
      unfold Spec.crop
      simp only [Nat.zero_add, Nat.sub_zero]
      exact (mkImg_px im.len).symm
  · rw [if_neg hall]
    have hc := crop_returns_core P w h ch d l t (r - l) (b - t) hp im.w_u32 im.h_u32 hch (by omega)
      (by omega) (by omega) (by omega) im.len hsz
    refine HOk.bind hc ?_
    intro res h' hres
    refine HOk.pure ⟨i32OfU32_eq (by omega), i32OfU32_eq (by omega), ?_⟩
    cases res with
    | none => exact hres
    | some buf => exact hres

end FlatCV
