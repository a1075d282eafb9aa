/-
The PNM decoder: the header of a valid file.
-/
import Verif.Lemmas.PnmSafe
import Verif.Spec.Pnm

namespace FlatCV
open Model Pnm

/-- `l` is still to be read, and the end was not met. -/
structure Unread (s : Ctx) (l : List UInt8) : Prop where
  live : s.live = true
  ok : CtxOk s
  rem : Ctx.rem s = l

theorem unread_start {file : List UInt8} (h : file ≠ []) : Unread (start_file file) file := by
  obtain ⟨h1, _, h3⟩ := start_next file
  refine ⟨?_, h1, by rw [h3, if_neg h, List.append_nil]⟩
  rw [start_file, refill, List.drop_zero, if_neg (by cases file with | nil => exact absurd rfl h | cons a l => simp)]

theorem Unread.get {s : Ctx} {b : UInt8} {l : List UInt8} (h : Unread s (b :: l)) : (get8 s).1 = b ∧ Unread (get8 s).2 l := by
  obtain ⟨h1, h2⟩ := get8_next h.ok
  rw [h.rem] at h1 h2
  refine ⟨h1, ?_, h2.ok, h2.rem⟩
  have hr := h.rem
  rw [get8]
  by_cases hb : s.buf = []
  · rw [if_neg (by simpa using hb), if_pos h.live, refill, nextByte]
    rw [Ctx.rem, hb, List.nil_append] at hr
    rw [if_neg (by rw [hr]; simp)]
    exact h.live
  · rw [if_pos hb]
    exact h.live

variable {feof : Ctx → Bool} (hf : ∀ s : Ctx, feof s = true → s.file.length ≤ s.fpos)
include hf

theorem Unread.more {s : Ctx} {l : List UInt8} (h : Unread s l) (hl : l ≠ []) : at_eof feof s = false := by
  rw [at_eof, h.live]
  by_cases hb : s.buf = []
  · cases he : feof s with
    | false => rfl
    | true =>
      have := h.rem
      rw [Ctx.rem, hb, List.drop_eq_nil_of_le (hf s he)] at this
      exact absurd this.symm hl
  · rw [decide_eq_false hb]
    simp

/-- The byte `c` was read, `l` is to be seen from it on. -/
def Ahead (c : UInt8) (s : Ctx) (l : List UInt8) : Prop := ∃ t, l = c :: t ∧ t ≠ [] ∧ Unread s t

omit hf in
theorem Ahead.next {c : UInt8} {s : Ctx} {l : List UInt8} (h : Ahead c s l) (hl : 3 ≤ l.length) : Ahead (get8 s).1 (get8 s).2 l.tail := by
  obtain ⟨t, rfl, h1, h2⟩ := h
  match t, h1, h2, hl with
  | b :: u, _, h2, hl =>
    obtain ⟨g1, g2⟩ := h2.get
    refine ⟨u, by rw [g1]; rfl, ?_, g2⟩
    rintro rfl
    simp at hl

theorem Ahead.more {c : UInt8} {s : Ctx} {l : List UInt8} (h : Ahead c s l) : at_eof feof s = false := by
  obtain ⟨t, _, h1, h2⟩ := h
  exact h2.more hf h1

omit hf in
theorem Ahead.len {c : UInt8} {s : Ctx} {l : List UInt8} (h : Ahead c s l) : l.length < s.fuel := by
  obtain ⟨t, rfl, _, h2⟩ := h
  have := fuel_togo s
  rw [Ctx.togo, h2.rem, if_pos h2.live] at this
  exact this

omit hf in
theorem isspace_of {c : UInt8} (h : White c) : pnm_isspace c = true := by
  rcases h with rfl | ⟨h1, h2⟩
  · rfl
  · rw [UInt8.le_iff_toNat_le] at h1 h2
    have e1 : (9 : UInt8).toNat = 9 := rfl
    have e2 : (13 : UInt8).toNat = 13 := rfl
    rw [pnm_isspace]
    simp only [Bool.or_eq_true, decide_eq_true_eq]
    omega

theorem pnm_spaces_ok {w r : List UInt8} (hr : 2 ≤ r.length) (hn : pnm_isspace (r.headD 0) = false) : ∀ (n : Nat) (c : UInt8) (s : Ctx), (∀ b ∈ w, White b) → w.length < n →
    Ahead c s (w ++ r) → Ok (pnmSpaces feof n c s) fun q => Ahead q.1 q.2 r := by
  induction w with
  | nil =>
    intro n c s _ hlt ha
    obtain ⟨n, rfl⟩ : ∃ k, n = k + 1 := ⟨n - 1, by simp at hlt; omega⟩
    have hc : c = r.headD 0 := by
      obtain ⟨t, ht, _⟩ := ha
      rw [List.nil_append] at ht
      rw [ht]
      rfl
    rw [pnmSpaces, hc, hn, Bool.and_false, if_neg (by decide), ← hc]
    exact ⟨_, rfl, ha⟩
  | cons b w ih =>
    intro n c s hw hlt ha
    obtain ⟨n, rfl⟩ : ∃ k, n = k + 1 := ⟨n - 1, by simp at hlt; omega⟩
    have hc : c = b := by
      obtain ⟨t, ht, _⟩ := ha
      exact (List.cons.inj ht).1.symm
    rw [pnmSpaces, ha.more hf, hc, isspace_of (hw b (by simp)), if_pos (by decide)]
    exact ih n _ _ (fun x hx => hw x (by simp [hx])) (by simp at hlt; omega) (ha.next (by simp; omega))

theorem pnm_comment_ok {w r : List UInt8} {nl : UInt8} (hr : 1 ≤ r.length) (hn : nl = 10 ∨ nl = 13) : ∀ (n : Nat) (c : UInt8) (s : Ctx), (∀ b ∈ w, b ≠ 10 ∧ b ≠ 13) → w.length < n →
    Ahead c s (w ++ nl :: r) → Ok (pnmComment feof n c s) fun q => Ahead q.1 q.2 (nl :: r) := by
  induction w with
  | nil =>
    intro n c s _ hlt ha
    obtain ⟨n, rfl⟩ : ∃ k, n = k + 1 := ⟨n - 1, by simp at hlt; omega⟩
    have hc : c = nl := by
      obtain ⟨t, ht, _⟩ := ha
      exact (List.cons.inj ht).1.symm
    rw [pnmComment, if_neg (by rw [hc]; rcases hn with rfl | rfl <;> simp)]
    exact ⟨_, rfl, ha⟩
  | cons b w ih =>
    intro n c s hw hlt ha
    obtain ⟨n, rfl⟩ : ∃ k, n = k + 1 := ⟨n - 1, by simp at hlt; omega⟩
    have hc : c = b := by
      obtain ⟨t, ht, _⟩ := ha
      exact (List.cons.inj ht).1.symm
    have hb := hw b (by simp)
    rw [pnmComment, ha.more hf, hc, if_pos (by simp [hb.1, hb.2])]
    exact ih n _ _ (fun x hx => hw x (by simp [hx])) (by simp at hlt; omega) (ha.next (by simp; omega))

omit hf in
/-- White space up to the next comment. -/
theorem blank_split {l : List UInt8} (h : Gap l) : ∃ w r, l = w ++ r ∧ (∀ b ∈ w, White b) ∧
    (r = [] ∨ ∃ text nl k, r = 35 :: (text ++ nl :: k) ∧ (∀ b ∈ text, b ≠ 10 ∧ b ≠ 13) ∧ (nl = 10 ∨ nl = 13) ∧ Gap k) := by
  induction h with
  | none => exact ⟨[], [], rfl, by simp, Or.inl rfl⟩
  | white hb _ ih =>
    obtain ⟨w, r, h1, h2, h3⟩ := ih
    refine ⟨_ :: w, r, by rw [h1]; rfl, fun x hx => ?_, h3⟩
    rcases List.mem_cons.mp hx with rfl | hx
    · exact hb
    · exact h2 x hx
  | comment h1 h2 h3 _ => exact ⟨[], _, rfl, by simp, Or.inr ⟨_, _, _, rfl, h1, h2, h3⟩⟩

/-- A byte that ends white space: no white space and no comment. -/
theorem pnm_skip_ok {r : List UInt8} (hr : 2 ≤ r.length) (hn : pnm_isspace (r.headD 0) = false) (h35 : r.headD 0 ≠ 35) : ∀ (n : Nat) (l : List UInt8) (c : UInt8) (s : Ctx), Gap l →
    l.length < n → Ahead c s (l ++ r) → Ok (pnmSkip feof n c s) fun q => Ahead q.1 q.2 r := by
  intro n
  induction n with
  | zero => intro l c s _ h; omega
  | succ n ih =>
    intro l c s hl hlt ha
    rw [pnmSkip]
    have hlen := ha.len
    obtain ⟨w, k, rfl, hw, hk⟩ := blank_split hl
    rcases hk with rfl | ⟨text, nl, k, rfl, ht, hnl, hk⟩
    · rw [List.append_nil] at ha hlt hlen
      refine Ok.bind (pnm_spaces_ok hf hr hn s.fuel c s hw (by rw [List.length_append] at hlen; omega) ha) fun q hq => ?_
      have hc : q.1 ≠ 35 := by
        obtain ⟨t, ht, _⟩ := hq
        rw [ht] at h35
        exact h35
      rw [if_pos (by rw [decide_eq_true hc, Bool.or_true])]
      exact Ok.pure' hq
    · have e : w ++ 35 :: (text ++ nl :: k) ++ r = w ++ ((35 :: text) ++ nl :: (k ++ r)) := by simp
      rw [e] at ha hlen
      simp only [List.length_append, List.length_cons] at hlt hlen
      refine Ok.bind (pnm_spaces_ok hf (by simp; omega) (by rfl) s.fuel c s hw (by omega) ha) fun q hq => ?_
      have hc : q.1 = 35 := by
        obtain ⟨t, ht, _⟩ := hq
        exact (List.cons.inj ht).1.symm
      rw [if_neg (by rw [hq.more hf, hc]; decide)]
      have hlen2 := hq.len
      simp only [List.length_append, List.length_cons] at hlen2
      refine Ok.bind (pnm_comment_ok hf (by simp; omega) hnl q.2.fuel q.1 q.2 ?_ (by simp; omega) hq) fun t ht' => ?_
      · intro b hb
        rcases List.mem_cons.mp hb with rfl | hb
        · decide
        · exact ht b hb
      · refine ih (nl :: k) t.1 t.2 (.white ?_ hk) (by simp; omega) ht'
        rcases hnl with rfl | rfl
        · exact Or.inr (by decide)
        · exact Or.inr (by decide)

omit hf in
theorem decimal_grows (t : List UInt8) (v : Nat) : v ≤ t.foldl (fun v b => v * 10 + (b.toNat - 48)) v := by
  induction t generalizing v with
  | nil => exact le_rfl
  | cons b t ih => exact le_trans (show v ≤ v * 10 + (b.toNat - 48) by omega) (ih _)

omit hf in
theorem pnm_digit_of {b : UInt8} (h : 48 ≤ b ∧ b ≤ 57) : 48 ≤ b.toNat ∧ b.toNat ≤ 57 := by
  rw [UInt8.le_iff_toNat_le, UInt8.le_iff_toNat_le] at h
  exact h

theorem pnm_digits_ok {r : List UInt8} (hr : 2 ≤ r.length) (hn : pnm_isdigit (r.headD 0) = false) : ∀ (t : List UInt8) (n v : Nat) (c : UInt8) (s : Ctx),
    (∀ b ∈ t, 48 ≤ b ∧ b ≤ 57) → t.length < n → Ahead c s (t ++ r) → t.foldl (fun v b => v * 10 + (b.toNat - 48)) v ≤ 16777216 →
    Ok (pnmDigits feof n v c s) fun q => q.1 = t.foldl (fun v b => v * 10 + (b.toNat - 48)) v ∧ Ahead q.2.1 q.2.2 r := by
  intro t
  induction t with
  | nil =>
    intro n v c s _ hlt ha _
    obtain ⟨n, rfl⟩ : ∃ k, n = k + 1 := ⟨n - 1, by simp at hlt; omega⟩
    have hc : c = r.headD 0 := by
      obtain ⟨t, ht, _⟩ := ha
      rw [List.nil_append] at ht
      rw [ht]
      rfl
    rw [pnmDigits, hc, hn, Bool.and_false, if_neg (by decide), ← hc]
    exact ⟨_, rfl, rfl, ha⟩
  | cons b t ih =>
    intro n v c s hw hlt ha hv
    obtain ⟨n, rfl⟩ : ∃ k, n = k + 1 := ⟨n - 1, by simp at hlt; omega⟩
    have hc : c = b := by
      obtain ⟨t, ht, _⟩ := ha
      exact (List.cons.inj ht).1.symm
    have hb := pnm_digit_of (hw b (by simp))
    have hg := decimal_grows t (v * 10 + (b.toNat - 48))
    rw [List.foldl_cons] at hv ⊢
    have he := ha.more hf
    have hd : pnm_isdigit b = true := by rw [pnm_isdigit, decide_eq_true_eq]; exact hb
    rw [pnmDigits, he, hc, hd, if_pos (by decide), i32_ok (by constructor <;> omega), ok_bind, i32_ok (by constructor <;> omega), ok_bind]
    have e : ((v : Int) * 10 + ((b.toNat : Int) - 48)).toNat = v * 10 + (b.toNat - 48) := by omega
    rw [e, if_neg (by omega)]
    exact ih n _ _ _ (fun x hx => hw x (by simp [hx])) (by simp at hlt; omega) (ha.next (by simp; omega)) hv

omit hf in
theorem pnm_digit_head {t : List UInt8} {v : Nat} (h : Decimal t v) (r : List UInt8) : pnm_isspace ((t ++ r).headD 0) = false ∧ (t ++ r).headD 0 ≠ 35 := by
  obtain ⟨h1, h2, _⟩ := h
  match t, h1 with
  | b :: t, _ =>
    have := pnm_digit_of (h2 b (by simp))
    show pnm_isspace b = false ∧ b ≠ 35
    constructor
    · rw [pnm_isspace]
      simp only [Bool.or_eq_false_iff, decide_eq_false_iff_not]
      omega
    · rintro rfl
      exact absurd this.1 (by decide)

omit hf in
theorem white_nodigit {b : UInt8} (h : White b) : pnm_isdigit b = false := by
  rw [pnm_isdigit, decide_eq_false_iff_not]
  rcases h with rfl | ⟨_, h⟩
  · decide
  · rw [UInt8.le_iff_toNat_le] at h
    have : (13 : UInt8).toNat = 13 := rfl
    omega

omit hf in
theorem blank_nodigit {g : List UInt8} (h : Gap g) (h0 : g ≠ []) (r : List UInt8) : pnm_isdigit ((g ++ r).headD 0) = false := by
  cases h with
  | none => exact absurd rfl h0
  | white hb _ => exact white_nodigit hb
  | comment _ _ _ => rfl

/-- One gap and one number. -/
theorem pnm_number_ok {g t r : List UInt8} {v : Nat} (hg : Gap g) (hd : Decimal t v) (hr : 2 ≤ r.length) (hn : pnm_isdigit (r.headD 0) = false) (hv : v ≤ 16777216)
    {n : Nat} {c : UInt8} {s : Ctx} (hlt : g.length < n) (ha : Ahead c s (g ++ (t ++ r))) {β : Type} {f : UInt8 × Ctx → Nat × UInt8 × Ctx → CM β} {Q : β → Prop}
    (hQ : ∀ q p, Ahead p.2.1 p.2.2 r → p.1 = v → Ok (f q p) Q) :
    Ok (pnmSkip feof n c s >>= fun q => pnmDigits feof q.2.fuel 0 q.1 q.2 >>= fun p => f q p) Q := by
  obtain ⟨h1, h2⟩ := pnm_digit_head hd r
  refine Ok.bind (pnm_skip_ok hf (by rw [List.length_append]; omega) h1 h2 n g c s hg hlt ha) fun q hq => ?_
  have hl := hq.len
  rw [List.length_append] at hl
  refine Ok.bind (pnm_digits_ok hf hr hn t q.2.fuel 0 q.1 q.2 hd.2.1 (by omega) hq (by rw [← hd.2.2]; exact hv)) fun p hp => hQ q p hp.2 (by rw [hp.1, hd.2.2])

/-- The header of a valid file. -/
theorem pnm_header_ok {file px : List UInt8} {n w h maxv : Nat} (H : IsPnm file n w h maxv px) (hw : w ≤ 16777216) (hh : h ≤ 16777216) :
    pnm_test (start_file file) = true ∧ Ok (pnm_info feof (start_file file)) fun r => ∃ s, r = some ⟨8 * sampleSize maxv, w, h, n, s⟩ ∧ CtxOk s ∧ Ctx.rem s = px := by
  obtain ⟨magic, g1, tw, g2, th, g3, tm, sp, hfile, hsp, b1, b2, b3, n1, n2, n3, d1, d2, d3, hm⟩ := H.parts
  have e : file = 80 :: magic :: (g1 ++ (tw ++ (g2 ++ (th ++ (g3 ++ (tm ++ (sp :: px))))))) := by rw [hfile]; simp
  have hne : file ≠ [] := by rw [e]; simp
  have hpx : px ≠ [] := by
    rintro rfl
    have := H.size
    have h1 : 1 ≤ n := by omega
    have h2 : 1 ≤ sampleSize maxv := by unfold sampleSize; split <;> omega
    have := Nat.mul_pos (Nat.mul_pos (Nat.mul_pos h1 H.width) H.height) h2
    simp at *
    omega
  have hp1 : 1 ≤ px.length := List.length_pos_iff.mpr hpx
  have u0 := unread_start hne
  rw [e] at u0
  obtain ⟨c0, u1⟩ := u0.get
  obtain ⟨c1, u2⟩ := u1.get
  rw [← e] at c0 c1 u2
  have ht : pnm_test (start_file file) = true := by
    rw [pnm_test, c0, c1]
    rcases hm with ⟨rfl, _⟩ | ⟨rfl, _⟩ <;> rfl
  refine ⟨ht, ?_⟩
  rw [pnm_info, if_pos ht, c1]
  have en : (if magic = 54 then 3 else 1) = n := by rcases hm with ⟨rfl, rfl⟩ | ⟨rfl, rfl⟩ <;> rfl
  rw [en, pnmHeader]
  set s2 := (get8 (get8 (start_file file)).2).2 with hs2
  have a2 : Ahead (get8 s2).1 (get8 s2).2 (g1 ++ (tw ++ (g2 ++ (th ++ (g3 ++ (tm ++ (sp :: px))))))) := by
    match g1, n1, u2 with
    | b :: g, _, u2 =>
      obtain ⟨k1, k2⟩ := Unread.get (s := s2) (b := b) (l := g ++ (tw ++ (g2 ++ (th ++ (g3 ++ (tm ++ (sp :: px))))))) u2
      exact ⟨_, by rw [k1]; rfl, by simp, k2⟩
  have hl2 : g1.length < s2.fuel := by
    have := fuel_togo s2
    rw [Ctx.togo, u2.rem, List.length_append] at this
    omega
  refine pnm_number_ok hf b1 d1 (by simp; omega) (blank_nodigit b2 n2 _) hw hl2 a2 fun q p hp ep => ?_
  rw [if_neg (by have := H.width; omega)]
  have hl := hp.len
  rw [List.length_append] at hl
  refine pnm_number_ok hf b2 d2 (by simp; omega) (blank_nodigit b3 n3 _) hh (by omega) hp fun q' p' hp' ep' => ?_
  rw [if_neg (by have := H.height; omega)]
  have hl := hp'.len
  rw [List.length_append] at hl
  refine pnm_number_ok hf (r := sp :: px) b3 d3 (by simp; omega) (white_nodigit hsp) (by have := H.maximum; omega) (by omega) hp' fun q'' p'' hp'' ep'' => ?_
  have hmax := H.maximum
  rw [if_neg (by omega)]
  obtain ⟨t, t1, _, t2⟩ := hp''
  rw [← (List.cons.inj t1).2] at t2
  rw [ep, ep', ep'']
  by_cases h8 : 255 < maxv
  · rw [if_pos h8, sampleSize, if_neg (by omega)]
    exact ⟨_, rfl, _, rfl, t2.ok, t2.rem⟩
  · rw [if_neg h8, sampleSize, if_pos (by omega)]
    exact ⟨_, rfl, _, rfl, t2.ok, t2.rem⟩

end FlatCV
