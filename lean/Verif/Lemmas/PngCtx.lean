/-
The PNG decoder: reading the file.
-/
import Verif.Lemmas.PngFinish

namespace FlatCV
open Model Png

/-- The bytes that are still to be read. -/
def Ctx.rem (s : Ctx) : List UInt8 := s.buf ++ s.file.drop s.fpos

/-- The file was read to its end if no more is read from it. -/
def CtxOk (s : Ctx) : Prop := s.live = false → s.file.drop s.fpos = []

/-- `s'` is `s` after reading: what is left is `l`. -/
structure Next (s s' : Ctx) (l : List UInt8) : Prop where
  ok : CtxOk s'
  file : s'.file = s.file
  rem : Ctx.rem s' = l

theorem start_next (file : List UInt8) : CtxOk (start_file file) ∧ (start_file file).file = file ∧ Ctx.rem (start_file file) = file ++ (if file = [] then [0] else []) := by
  rw [start_file, refill]
  simp only [List.drop_zero]
  by_cases h : file = []
  · subst h
    rw [if_pos (by rfl)]
    refine ⟨fun _ => rfl, rfl, rfl⟩
  · rw [if_neg (by cases file with | nil => exact absurd rfl h | cons a l => simp), if_neg h]
    refine ⟨fun e => (by cases e), rfl, ?_⟩
    rw [Ctx.rem]
    simp only [List.append_nil, Nat.zero_add, List.length_take]
    rcases Nat.le_total 128 file.length with hl | hl
    · rw [Nat.min_eq_left hl, List.take_append_drop]
    · rw [Nat.min_eq_right hl, List.take_of_length_le hl, List.drop_length, List.append_nil]

theorem get8_next {s : Ctx} (h : CtxOk s) : (get8 s).1 = (Ctx.rem s).headD 0 ∧ Next s (get8 s).2 (Ctx.rem s).tail := by
  rw [get8]
  by_cases hb : s.buf = []
  · rw [if_neg (by simpa using hb)]
    cases hl : s.live with
    | false =>
      have := h hl
      rw [if_neg (by simp)]
      rw [Ctx.rem, hb, this]
      exact ⟨rfl, h, rfl, by rw [Ctx.rem, hb, this]; rfl⟩
    | true =>
      rw [if_pos rfl, refill, nextByte]
      by_cases hd : s.file.drop s.fpos = []
      · rw [if_pos (by rw [hd]; rfl)]
        rw [Ctx.rem, hb, hd]
        exact ⟨rfl, fun _ => hd, rfl, by rw [Ctx.rem]; simp only [hd]; rfl⟩
      · obtain ⟨a, l, hal⟩ : ∃ a l, s.file.drop s.fpos = a :: l := by
          cases he : s.file.drop s.fpos with
          | nil => exact absurd he hd
          | cons a l => exact ⟨a, l, rfl⟩
        rw [if_neg (by rw [hal]; simp)]
        rw [Ctx.rem, hb, hal]
        refine ⟨rfl, fun e => ?_, rfl, ?_⟩
        · simp only [hl] at e
          cases e
        · rw [Ctx.rem]
          simp only [List.take_succ_cons, List.tail_cons, List.nil_append]
          rw [← List.drop_drop, hal, List.length_cons, List.drop_succ_cons, List.length_take]
          rcases Nat.le_total 127 l.length with hl | hl
          · rw [Nat.min_eq_left hl, List.take_append_drop]
          · rw [Nat.min_eq_right hl, List.take_of_length_le hl, List.drop_length, List.append_nil]
  · rw [if_pos hb, nextByte, Ctx.rem]
    cases hbb : s.buf with
    | nil => exact absurd hbb hb
    | cons a l => exact ⟨rfl, h, rfl, rfl⟩

/-- The next two bytes as a number. -/
def num16 (l : List UInt8) : Nat := (l.getD 0 0).toNat * 256 + (l.getD 1 0).toNat

/-- The next four bytes as a number. -/
def num32 (l : List UInt8) : Nat := num16 l * 65536 + num16 (l.drop 2)

theorem headD_eq (l : List UInt8) : l.headD 0 = l.getD 0 0 := by cases l <;> rfl

theorem Next.trans {s s' s'' : Ctx} {l l' : List UInt8} (h : Next s s' l) (h' : Next s' s'' l') : Next s s'' l' := ⟨h'.ok, h'.file.trans h.file, h'.rem⟩

theorem get16_next {s : Ctx} (h : CtxOk s) : (get16be s).1 = num16 (Ctx.rem s) ∧ Next s (get16be s).2 ((Ctx.rem s).drop 2) := by
  rw [get16be]
  obtain ⟨h1, h2⟩ := get8_next h
  obtain ⟨h3, h4⟩ := get8_next h2.ok
  simp only
  rw [h2.rem] at h3 h4
  refine ⟨?_, (h2.trans h4).ok, (h2.trans h4).file, ?_⟩
  · rw [h1, h3, num16, headD_eq, headD_eq]
    cases Ctx.rem s <;> rfl
  · rw [h4.rem]
    rw [← List.drop_one, ← List.drop_one, List.drop_drop]

theorem get32_next {s : Ctx} (h : CtxOk s) : (get32be s).1 = num32 (Ctx.rem s) ∧ Next s (get32be s).2 ((Ctx.rem s).drop 4) := by
  rw [get32be]
  obtain ⟨h1, h2⟩ := get16_next h
  obtain ⟨h3, h4⟩ := get16_next h2.ok
  simp only
  rw [h2.rem] at h3 h4
  refine ⟨by rw [h1, h3, num32], (h2.trans h4).ok, (h2.trans h4).file, ?_⟩
  rw [h4.rem, List.drop_drop]

theorem skip_next {s : Ctx} (h : CtxOk s) (n : Nat) : ∃ l, Next s (skip s n) l ∧ l.length ≤ (Ctx.rem s).length ∧ (n < 2147483648 → l = (Ctx.rem s).drop n) := by
  rw [skip]
  by_cases h0 : n = 0
  · rw [if_pos h0]
    exact ⟨_, ⟨h, rfl, rfl⟩, le_rfl, fun _ => by rw [h0, List.drop_zero]⟩
  · rw [if_neg h0]
    by_cases h1 : 2147483648 ≤ n
    · rw [if_pos h1]
      exact ⟨_, ⟨h, rfl, rfl⟩, by simp only [Ctx.rem, List.nil_append, List.length_append]; omega, fun e => absurd e (by omega)⟩
    · rw [if_neg h1]
      by_cases h2 : s.buf.length < n
      · rw [if_pos h2]
        have e : (Ctx.rem s).drop n = s.file.drop (s.fpos + (n - s.buf.length)) := by
          rw [Ctx.rem, List.drop_append, List.drop_eq_nil_of_le (by omega), List.nil_append, List.drop_drop]
        refine ⟨(Ctx.rem s).drop n, ⟨fun hl => ?_, rfl, ?_⟩, by rw [List.length_drop]; omega, fun _ => rfl⟩
        · have := h hl
          simp only
          rw [← List.drop_drop, this, List.drop_nil]
        · rw [e, Ctx.rem, List.nil_append]
      · rw [if_neg h2]
        refine ⟨(Ctx.rem s).drop n, ⟨h, rfl, ?_⟩, by rw [List.length_drop]; omega, fun _ => rfl⟩
        rw [Ctx.rem, Ctx.rem, List.drop_append_of_le_length (by omega)]

theorem getn_next {s : Ctx} (h : CtxOk s) (n : Nat) :
    (n ≤ (Ctx.rem s).length ∧ (getn s n).1 = some ((Ctx.rem s).take n) ∧ Next s (getn s n).2 ((Ctx.rem s).drop n)) ∨ ((Ctx.rem s).length < n ∧ (getn s n).1 = none) := by
  rw [getn]
  by_cases h2 : s.buf.length < n
  · rw [if_pos h2]
    simp only
    have hrl : (Ctx.rem s).length = s.buf.length + (s.file.drop s.fpos).length := by rw [Ctx.rem, List.length_append]
    by_cases h3 : ((s.file.drop s.fpos).take (n - s.buf.length)).length = n - s.buf.length
    · rw [if_pos h3]
      have h4 : n - s.buf.length ≤ (s.file.drop s.fpos).length := by
        rw [List.length_take] at h3
        omega
      refine Or.inl ⟨by omega, ?_, fun hl => ?_, rfl, ?_⟩
      · rw [Ctx.rem, List.take_append, List.take_of_length_le (l := s.buf) (by omega)]
      · have := h hl
        simp only
        rw [← List.drop_drop, this, List.drop_nil]
      · simp only [Ctx.rem]
        rw [List.nil_append, List.drop_append, List.drop_eq_nil_of_le (as := s.buf) (by omega), List.nil_append, List.drop_drop, h3]
    · rw [if_neg h3]
      refine Or.inr ⟨?_, rfl⟩
      rw [List.length_take] at h3
      omega
  · rw [if_neg h2]
    refine Or.inl ⟨by rw [Ctx.rem, List.length_append]; omega, ?_, h, rfl, ?_⟩
    · rw [Ctx.rem, List.take_append_of_le_length (by omega)]
    · rw [Ctx.rem, Ctx.rem, List.drop_append_of_le_length (by omega)]

/-- The signature. -/
def pngSignature : List UInt8 := [137, 80, 78, 71, 13, 10, 26, 10]

theorem check_fold {sig : List UInt8} {s : Ctx} (h : CtxOk s) (b : Bool) :
    let r := sig.foldl (fun (t : Bool × Ctx) (b : UInt8) => if t.1 then let (v, s) := get8 t.2; (decide (v = b), s) else t) (b, s)
    (r.1 = true → b = true ∧ (∀ k, k < sig.length → (Ctx.rem s).getD k 0 = sig.getD k 0) ∧ Next s r.2 ((Ctx.rem s).drop sig.length)) ∧
    (b = true → (∀ k, k < sig.length → (Ctx.rem s).getD k 0 = sig.getD k 0) → r.1 = true) := by
  induction sig generalizing s b with
  | nil => exact ⟨fun e => ⟨e, fun k hk => absurd hk (by simp), h, rfl, rfl⟩, fun e _ => e⟩
  | cons a sig ih =>
    rw [List.foldl_cons]
    cases b with
    | false =>
      simp only [Bool.false_eq_true, if_false]
      obtain ⟨h1, h2⟩ := ih h false
      refine ⟨fun e => ?_, fun e => (by cases e)⟩
      exact absurd (h1 e).1 (by simp)
    | true =>
      simp only [if_true]
      obtain ⟨g1, g2⟩ := get8_next h
      obtain ⟨h1, h2⟩ := ih g2.ok (decide ((get8 s).1 = a))
      rw [g2.rem] at h1 h2
      have hd : ∀ k, (Ctx.rem s).tail.getD k 0 = (Ctx.rem s).getD (k + 1) 0 := fun k => by cases Ctx.rem s <;> rfl
      refine ⟨fun e => ?_, fun _ e => ?_⟩
      · obtain ⟨q1, q2, q3⟩ := h1 e
        refine ⟨trivial, fun k hk => ?_, ?_⟩
        · cases k with
          | zero =>
            have := of_decide_eq_true q1
            rw [← headD_eq, ← g1, this]
            rfl
          | succ k =>
            rw [← hd, q2 k (by rw [List.length_cons] at hk; omega)]
            rfl
        · have := g2.trans q3
          rwa [← List.drop_one, List.drop_drop, Nat.add_comm] at this
      · refine h2 ?_ fun k hk => ?_
        · have := e 0 (by simp)
          rw [g1, headD_eq, this]
          simp
        · rw [hd, e (k + 1) (by rw [List.length_cons]; omega)]
          rfl

theorem check_next {s : Ctx} (h : CtxOk s) :
    ((check_png_header s).1 = true ↔ ∀ k, k < 8 → (Ctx.rem s).getD k 0 = pngSignature.getD k 0) ∧
    ((check_png_header s).1 = true → Next s (check_png_header s).2 ((Ctx.rem s).drop 8)) := by
  obtain ⟨h1, h2⟩ := check_fold (sig := pngSignature) h true
  exact ⟨⟨fun e => (h1 e).2.1, h2 rfl⟩, fun e => (h1 e).2.2⟩

end FlatCV
