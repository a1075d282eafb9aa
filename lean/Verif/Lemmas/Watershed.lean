/-
Lemmas about the watershed model: the queue, the scan of the neighbours, one round of flooding.
-/
import Verif.Lemmas.Mem
import Verif.Lemmas.Image
import Verif.Lemmas.Trim
import Verif.Model.Watershed
import Verif.Spec.Watershed

namespace FlatCV
open Model Spec

/-! ### The ring buffer -/

/-- The ring buffer `q` of capacity `cap` holds the items `l`, oldest first. -/
structure QRep (cap : Nat) (q : Queue) (l : List QueueItem) : Prop where
  intro ::
  hcap : q.capacity = cap
  size : q.size = l.length
  len : q.items.length = cap
  le : l.length ≤ cap
  ex : ∃ f : Nat, f < cap ∧ q.front = f ∧ -1 ≤ q.rear ∧ q.rear < cap ∧
    (q.rear + 1) % cap = ((f + l.length : Nat) : Int) % cap ∧
    ∀ i, i < l.length → q.items[(f + i) % cap]? = some l[i]?

theorem newQueue_rep {cap : Nat} (h0 : 0 < cap) (h1 : cap ≤ 2147483647) :
    QRep cap (newQueue (List.replicate cap none) cap) [] := by
  refine ⟨i32OfU32_eq (by omega), rfl, by simp [newQueue], by simp, 0, h0, rfl, ?_, ?_, ?_, ?_⟩
  · simp [newQueue]
  · simp [newQueue]; omega
  · simp [newQueue]
  · intro i hi; simp at hi

/-- What `enqueue` does to the contents. -/
def qpush (cap : Nat) (l : List QueueItem) (it : QueueItem) : List QueueItem :=
  if l.length < cap then l ++ [it] else l

theorem enqueue_ok {cap : Nat} {q : Queue} {l : List QueueItem} (h : QRep cap q l)
    (hc : cap ≤ 2147483647) (x y lb : Int) :
    Ok (enqueue q x y lb) (fun r => QRep cap r (qpush cap l ⟨x, y, lb⟩)) := by
  obtain ⟨h1, h2, h3, h4, f, hf, hfr, hr0, hr1, hr, hi⟩ := h
  unfold enqueue qpush
  by_cases hl : l.length < cap
  · have hg : ¬ q.size ≥ q.capacity := by rw [h1, h2]; omega
    have hcz : ¬ q.capacity = 0 := by rw [h1]; omega
    rw [if_neg hg, i32_ok (by unfold IsI32; omega)]
    simp only [ok_bind, if_neg hcz, if_pos hl]
    have ht : (q.rear + 1).tmod q.capacity = (((f + l.length) % cap : Nat) : Int) := by
      rw [h1, Int.tmod_eq_emod_of_nonneg (by omega), hr]
      norm_cast
    have hlt : (f + l.length) % cap < cap := Nat.mod_lt _ (by omega)
    rw [ht]
    unfold wrZ
    rw [if_pos (by omega), Int.toNat_natCast, wr_ok (by omega)]
    simp only [ok_bind]
    rw [i32_ok (by unfold IsI32; omega)]
    refine Ok.pure ⟨h1, ?_, by simpa using h3, by simp; omega, f, hf, hfr, ?_, ?_, ?_, ?_⟩
    · simp only [List.length_append, List.length_singleton, h2]; push_cast; rfl
    · simp only; omega
    · simp only; omega
    · simp only [List.length_append, List.length_singleton]
      push_cast
      rw [Int.emod_add_emod]
      ring_nf
    · intro i hil
      simp only [List.length_append, List.length_singleton] at hil
      simp only
      by_cases he : i = l.length
      · subst he
        rw [List.getElem?_set_self (by omega)]
        simp
      · have hne : (f + l.length) % cap ≠ (f + i) % cap := by
          intro e
          have hi' : i < l.length := by omega
          have := Nat.sub_mod_eq_zero_of_mod_eq e
          rw [Nat.mod_eq_of_lt (by omega)] at this
          omega
        rw [List.getElem?_set_ne hne, hi i (by omega), List.getElem?_append_left (by omega)]
  · have hg : q.size ≥ q.capacity := by rw [h1, h2]; omega
    rw [if_pos hg, if_neg hl]
    exact Ok.pure' ⟨h1, h2, h3, h4, f, hf, hfr, hr0, hr1, hr, hi⟩

theorem dequeue_ok {cap : Nat} {q : Queue} {a : QueueItem} {l : List QueueItem}
    (h : QRep cap q (a :: l)) (hc : cap ≤ 2147483647) :
    Ok (dequeue q) (fun r => r.1 = a ∧ QRep cap r.2 l) := by
  obtain ⟨h1, h2, h3, h4, f, hf, hfr, hr0, hr1, hr, hi⟩ := h
  simp only [List.length_cons] at h2 h4 hr hi
  unfold dequeue
  have hs : ¬ q.size = 0 := by rw [h2]; omega
  have hcz : ¬ q.capacity = 0 := by rw [h1]; omega
  have h0 := hi 0 (by omega)
  simp only [Nat.add_zero, List.getElem?_cons_zero, Nat.mod_eq_of_lt hf] at h0
  rw [if_neg hs, hfr]
  unfold rdZ
  rw [if_pos (by omega), Int.toNat_natCast, rd_ok h0, ok_bind,
    i32_ok (z := (f : Int) + 1) (by unfold IsI32; omega), ok_bind, if_neg hcz,
    i32_ok (z := q.size - 1) (by unfold IsI32; omega), ok_bind]
  refine Ok.pure' ⟨rfl, h1, ?_, h3, by omega, (f + 1) % cap, Nat.mod_lt _ (by omega), ?_, hr0, hr1,
    ?_, ?_⟩
  · simp only [h2]; push_cast; ring
  · simp only [h1]
    rw [Int.tmod_eq_emod_of_nonneg (by omega)]
    norm_cast
  · simp only [hr]
    push_cast
    rw [Int.emod_add_emod]
    ring_nf
  · intro i hil
    have := hi (i + 1) (by omega)
    rw [List.getElem?_cons_succ] at this
    simp only
    rw [← this]
    congr 1
    rw [Nat.mod_add_mod]
    congr 1
    ring

/-! ### Indices -/

theorem wsIdx_eq {w h x y : Nat} (hx : x < w) (hy : y < h) (hn : w * h ≤ 2147483647) :
    wsIdx w (x : Int) (y : Int) = ((y * w + x : Nat) : Int) := by
  have hlt := idx_lt hx hy
  unfold wsIdx
  have hxx : x < 4294967296 := by omega
  have hyy : y < 4294967296 := by
    have : y ≤ y * w := Nat.le_mul_of_pos_right _ (by omega)
    omega
  rw [u32OfInt_eq (by omega) (by omega), u32OfInt_eq (by omega) (by omega)]
  simp only [Int.toNat_natCast]
  rw [u32_eq (n := y * w) (by omega), u32_eq (by omega), i32OfU32_eq (by omega)]

/-- Label number `i`, `-1` outside. -/
def gl (lab : List Int) (i : Nat) : Int := (lab[i]?).getD (-1)

theorem gl_some {lab : List Int} {i : Nat} (h : i < lab.length) : lab[i]? = some (gl lab i) := by
  unfold gl; rw [List.getElem?_eq_getElem h]; rfl

theorem rdZ_gl {lab : List Int} {i : Nat} (h : i < lab.length) :
    rdZ (lab.map some) (i : Int) = .ok (gl lab i) := by
  unfold rdZ
  rw [if_pos (by omega), Int.toNat_natCast, rd_map_some, rdIn_ok (gl_some h)]

theorem wrZ_gl {lab : List Int} {i : Nat} (h : i < lab.length) (v : Int) :
    wrZ (lab.map some) (i : Int) v = .ok ((lab.set i v).map some) := by
  unfold wrZ
  rw [if_pos (by omega), Int.toNat_natCast, wr_map_some h]

theorem gl_set {lab : List Int} {i j : Nat} (h : i < lab.length) (v : Int) :
    gl (lab.set i v) j = if i = j then v else gl lab j := by
  unfold gl
  by_cases e : i = j
  · subst e; rw [List.getElem?_set_self h, if_pos rfl]; rfl
  · rw [List.getElem?_set_ne e, if_neg e]

/-! ### Scanning the neighbours -/

/-- Fold with early exit. -/
def scanS {σ α : Type} (f : σ → α → σ × Bool) (s : σ) : List α → σ
  | [] => s
  | a :: t => if (f s a).2 then (f s a).1 else scanS f (f s a).1 t

theorem forBreak_list {σ α : Type} {body : Nat → σ → CM (σ × Bool)} {f : σ → α → σ × Bool}
    (l : List α) {i : Nat} {s : σ}
    (hb : ∀ j a, l[j]? = some a → ∀ s, body (i + j) s = .ok (f s a)) :
    forBreak l.length i s body = .ok (scanS f s l) := by
  induction l generalizing i s with
  | nil => rfl
  | cons a t ih =>
    unfold scanS
    simp only [List.length_cons]
    unfold forBreak
    have h0 := hb 0 a rfl s
    rw [Nat.add_zero] at h0
    rw [h0]
    simp only [ok_bind]
    split
    · rfl
    · refine ih fun j b hj s => ?_
      have := hb (j + 1) b (by simpa using hj) s
      rw [← this]
      congr 1
      omega

/-- One neighbour with label `a` (`-1` if there is none). -/
def nbStep (s : Int × Bool) (a : Int) : (Int × Bool) × Bool :=
  if a = -1 then (s, false)
  else if s.1 = -1 then ((a, s.2), false)
  else if s.1 ≠ a then ((s.1, true), true)
  else (s, false)

/-- Labels of the four neighbours in the order left, right, above, below. -/
def nbs (w h : Nat) (lab : List Int) (x y : Nat) : List Int :=
  [if 0 < x then gl lab (y * w + (x - 1)) else -1,
   if x + 1 < w then gl lab (y * w + (x + 1)) else -1,
   if 0 < y then gl lab ((y - 1) * w + x) else -1,
   if y + 1 < h then gl lab ((y + 1) * w + x) else -1]

theorem nb_read {w h nx ny : Nat} {lab : List Int} (hn : w * h ≤ 2147483647)
    (hl : lab.length = w * h) (hx : nx < w) (hy : ny < h) :
    rdZ (lab.map some) (wsIdx w (nx : Int) (ny : Int)) = .ok (gl lab (ny * w + nx)) := by
  rw [wsIdx_eq hx hy hn]
  exact rdZ_gl (by rw [hl]; exact idx_lt hx hy)

theorem i32_dec {x : Nat} (h0 : 0 < x) (h : x ≤ 2147483647) :
    i32OfU32 (u32 (x + u32OfInt (-1))) = ((x - 1 : Nat) : Int) := by
  have : u32OfInt (-1) = 4294967295 := rfl
  rw [this]
  unfold u32
  rw [i32OfU32_eq (by omega)]
  omega

theorem i32_dec0 : i32OfU32 (u32 (0 + u32OfInt (-1))) = -1 := by decide

theorem i32_inc {x : Nat} (h : x < 2147483647) :
    i32OfU32 (u32 (x + u32OfInt 1)) = ((x + 1 : Nat) : Int) := by
  have : u32OfInt 1 = 1 := rfl
  rw [this, u32_eq (by omega), i32OfU32_eq (by omega)]

theorem i32_same {x : Nat} (h : x ≤ 2147483647) :
    i32OfU32 (u32 (x + u32OfInt 0)) = (x : Int) := by
  have : u32OfInt 0 = 0 := rfl
  rw [this, u32_eq (by omega), i32OfU32_eq (by omega)]
  rfl

theorem side_lt {w h : Nat} (hw : 0 < w) (hh : 0 < h) (hn : w * h ≤ 2147483647) :
    w ≤ 2147483647 ∧ h ≤ 2147483647 :=
  ⟨(Nat.le_mul_of_pos_right _ hh).trans hn, (Nat.le_mul_of_pos_left _ hw).trans hn⟩

theorem neighbourAt_in {w h nx ny : Nat} {lab : List Int} (hn : w * h ≤ 2147483647)
    (hl : lab.length = w * h) (hx : nx < w) (hy : ny < h) (s : Int × Bool) :
    neighbourAt w h (lab.map some) (nx : Int) (ny : Int) s
      = .ok (nbStep s (gl lab (ny * w + nx))) := by
  obtain ⟨hw, hh⟩ := side_lt (w := w) (h := h) (by omega) (by omega) hn
  unfold neighbourAt
  rw [i32OfU32_eq (n := w) (by omega), i32OfU32_eq (n := h) (by omega), if_pos (by omega),
    nb_read hn hl hx hy, ok_bind]
  unfold nbStep
  by_cases e : gl lab (ny * w + nx) = -1
  · rw [if_neg (not_not.2 e), if_pos e]; rfl
  · rw [if_pos e, if_neg e]
    split
    · rfl
    · split <;> rfl

theorem neighbourAt_out {w h : Nat} {nx ny : Int} {lab : Cells Int} (hw : w ≤ 2147483647)
    (hh : h ≤ 2147483647) (ho : nx < 0 ∨ (w : Int) ≤ nx ∨ ny < 0 ∨ (h : Int) ≤ ny)
    (s : Int × Bool) : neighbourAt w h lab nx ny s = .ok (nbStep s (-1)) := by
  unfold neighbourAt
  rw [i32OfU32_eq (n := w) (by omega), i32OfU32_eq (n := h) (by omega), if_neg (by omega)]
  rfl

theorem neighbourScan_ok {w h x y : Nat} {lab : List Int} (hn : w * h ≤ 2147483647)
    (hl : lab.length = w * h) (hx : x < w) (hy : y < h) :
    neighbourScan w h (lab.map some) x y = .ok (scanS nbStep (-1, false) (nbs w h lab x y)) := by
  obtain ⟨hw, hh⟩ := side_lt (w := w) (h := h) (by omega) (by omega) hn
  unfold neighbourScan
  refine forBreak_list (nbs w h lab x y) ?_
  intro j a hj s
  rw [Nat.zero_add]
  match j, hj with
  | 0, hj =>
    simp only [nbs, List.getElem?_cons_zero, Option.some.injEq] at hj
    subst hj
    have e1 : rdIn wsDx 0 = .ok (-1) := rfl
    have e2 : rdIn wsDy 0 = .ok 0 := rfl
    rw [e1, ok_bind, e2, ok_bind, i32_same (x := y) (by omega)]
    by_cases h0 : 0 < x
    · rw [i32_dec h0 (by omega), if_pos h0]
      exact neighbourAt_in hn hl (by omega) hy s
    · obtain rfl : x = 0 := by omega
      rw [i32_dec0, if_neg h0]
      exact neighbourAt_out hw hh (by omega) s
  | 1, hj =>
    simp only [nbs, List.getElem?_cons_zero, List.getElem?_cons_succ, Option.some.injEq] at hj
    subst hj
    have e1 : rdIn wsDx 1 = .ok 1 := rfl
    have e2 : rdIn wsDy 1 = .ok 0 := rfl
    rw [e1, ok_bind, e2, ok_bind, i32_same (x := y) (by omega), i32_inc (x := x) (by omega)]
    by_cases h0 : x + 1 < w
    · rw [if_pos h0]
      exact neighbourAt_in hn hl (by omega) hy s
    · rw [if_neg h0]
      exact neighbourAt_out hw hh (by omega) s
  | 2, hj =>
    simp only [nbs, List.getElem?_cons_zero, List.getElem?_cons_succ, Option.some.injEq] at hj
    subst hj
    have e1 : rdIn wsDx 2 = .ok 0 := rfl
    have e2 : rdIn wsDy 2 = .ok (-1) := rfl
    rw [e1, ok_bind, e2, ok_bind, i32_same (x := x) (by omega)]
    by_cases h0 : 0 < y
    · rw [i32_dec h0 (by omega), if_pos h0]
      exact neighbourAt_in hn hl hx (by omega) s
    · obtain rfl : y = 0 := by omega
      rw [i32_dec0, if_neg h0]
      exact neighbourAt_out hw hh (by omega) s
  | 3, hj =>
    simp only [nbs, List.getElem?_cons_zero, List.getElem?_cons_succ, Option.some.injEq] at hj
    subst hj
    have e1 : rdIn wsDx 3 = .ok 0 := rfl
    have e2 : rdIn wsDy 3 = .ok 1 := rfl
    rw [e1, ok_bind, e2, ok_bind, i32_same (x := x) (by omega), i32_inc (x := y) (by omega)]
    by_cases h0 : y + 1 < h
    · rw [if_pos h0]
      exact neighbourAt_in hn hl hx (by omega) s
    · rw [if_neg h0]
      exact neighbourAt_out hw hh (by omega) s
  | j + 4, hj => simp [nbs] at hj

/-- What the scan finds. -/
theorem scan_facts (l : List Int) (nl : Int) :
    (nl ≠ -1 → (scanS nbStep (nl, false) l).1 = nl) ∧
    ((scanS nbStep (nl, false) l).1 = -1 → ∀ a ∈ l, a = -1) ∧
    ((scanS nbStep (nl, false) l).1 ≠ nl → (scanS nbStep (nl, false) l).1 ∈ l) ∧
    ((scanS nbStep (nl, false) l).2 = true →
      ∃ a ∈ l, a ≠ -1 ∧ a ≠ (scanS nbStep (nl, false) l).1) ∧
    ((scanS nbStep (nl, false) l).2 = false →
      ∀ a ∈ l, a = -1 ∨ a = (scanS nbStep (nl, false) l).1) := by
  induction l generalizing nl with
  | nil => simp [scanS]
  | cons a t ih =>
    by_cases h1 : a = -1
    · rw [show scanS nbStep (nl, false) (a :: t) = scanS nbStep (nl, false) t by
        simp [scanS, nbStep, h1]]
      obtain ⟨i1, i2, i3, i4, i5⟩ := ih nl
      refine ⟨i1, ?_, ?_, ?_, ?_⟩
      · intro h b hb
        rcases List.mem_cons.1 hb with rfl | hb
        · exact h1
        · exact i2 h b hb
      · intro h; exact List.mem_cons_of_mem _ (i3 h)
      · intro h; obtain ⟨b, hb, hb'⟩ := i4 h; exact ⟨b, List.mem_cons_of_mem _ hb, hb'⟩
      · intro h b hb
        rcases List.mem_cons.1 hb with rfl | hb
        · exact Or.inl h1
        · exact i5 h b hb
    · by_cases h2 : nl = -1
      · subst h2
        rw [show scanS nbStep (-1, false) (a :: t) = scanS nbStep (a, false) t by
          simp [scanS, nbStep, h1]]
        obtain ⟨i1, i2, i3, i4, i5⟩ := ih a
        have e := i1 h1
        refine ⟨by simp, ?_, ?_, ?_, ?_⟩
        · intro h; exact absurd (e.symm.trans h) h1
        · intro h; rw [e]; exact List.mem_cons_self
        · intro h; obtain ⟨b, hb, hb'⟩ := i4 h; exact ⟨b, List.mem_cons_of_mem _ hb, hb'⟩
        · intro h b hb
          rcases List.mem_cons.1 hb with rfl | hb
          · exact Or.inr e.symm
          · exact i5 h b hb
      · by_cases h3 : nl = a
        · subst h3
          rw [show scanS nbStep (nl, false) (nl :: t) = scanS nbStep (nl, false) t by
            simp [scanS, nbStep, h2]]
          obtain ⟨i1, i2, i3, i4, i5⟩ := ih nl
          have e := i1 h2
          refine ⟨i1, ?_, ?_, ?_, ?_⟩
          · intro h; exact absurd (e.symm.trans h) h2
          · intro h; exact absurd e h
          · intro h; obtain ⟨b, hb, hb'⟩ := i4 h; exact ⟨b, List.mem_cons_of_mem _ hb, hb'⟩
          · intro h b hb
            rcases List.mem_cons.1 hb with rfl | hb
            · exact Or.inr e.symm
            · exact i5 h b hb
        · rw [show scanS nbStep (nl, false) (a :: t) = (nl, true) by
            simp [scanS, nbStep, h1, h2, h3]]
          refine ⟨fun _ => rfl, fun h => absurd h h2, fun h => absurd rfl h, fun _ => ?_,
            fun h => absurd h (by simp)⟩
          exact ⟨a, List.mem_cons_self, h1, fun e => h3 e.symm⟩

/-! ### One scan of the image -/

/-- The expansion found at pixel number `i`, if any. -/
def wsExp (w h : Nat) (d : List UInt8) (bd : Bool) (lvl : Nat) (lab : List Int) (i : Nat) :
    Option QueueItem :=
  if gl lab i ≠ -1 then none
  else if ¬ (px1 1 d i 0).toNat ≤ lvl then none
  else
    let r := scanS nbStep (-1, false) (nbs w h lab (i % w) (i / w))
    if r.1 ≠ -1 ∧ (r.2 = false ∨ bd = false) then some ⟨(i % w : Nat), (i / w : Nat), r.1⟩ else none

/-- Add an optional item. -/
def qpushO (cap : Nat) (l : List QueueItem) (o : Option QueueItem) : List QueueItem :=
  match o with
  | none => l
  | some it => qpush cap l it

theorem idx_mod {w x y : Nat} (hx : x < w) : (y * w + x) % w = x := by
  rw [Nat.mul_comm, Nat.mul_add_mod, Nat.mod_eq_of_lt hx]

theorem idx_div {w x y : Nat} (hx : x < w) : (y * w + x) / w = y := by
  rw [Nat.mul_comm, Nat.mul_add_div (by omega), Nat.div_eq_of_lt hx, Nat.add_zero]

theorem scanPixel_ok {w h x y : Nat} {d : List UInt8} {bd : Bool} {lvl : Nat} {lab : List Int}
    (hn : w * h ≤ 2147483647) (hd : d.length = w * h) (hl : lab.length = w * h) (hx : x < w)
    (hy : y < h) {s : Queue × Bool} {l : List QueueItem} (hs : QRep (w * h) s.1 l) :
    Ok (scanPixel w h d bd lvl (lab.map some) x y s) (fun r =>
      QRep (w * h) r.1 (qpushO (w * h) l (wsExp w h d bd lvl lab (y * w + x))) ∧
      r.2 = (s.2 || (wsExp w h d bd lvl lab (y * w + x)).isSome)) := by
  have hlt := idx_lt hx hy
  obtain ⟨hw, hh⟩ := side_lt (w := w) (h := h) (by omega) (by omega) hn
  have hgr : d[y * w + x]? = some (px1 1 d (y * w + x) 0) := by
    have := getElem?_px1 (n := w * h) (ch := 1) (d := d) (by omega) hlt (c := 0) (by omega)
    simpa using this
  unfold scanPixel
  rw [u32_eq (n := y * w) (by omega), u32_eq (n := y * w + x) (by omega),
    i32OfU32_eq (n := y * w + x) (by omega)]
  simp only
  rw [rdZ_gl (by omega), ok_bind]
  by_cases h1 : gl lab (y * w + x) = -1
  · rw [if_neg (not_not.2 h1)]
    unfold rdInZ
    rw [if_pos (by omega), Int.toNat_natCast, rdIn_ok hgr, ok_bind]
    by_cases h2 : (px1 1 d (y * w + x) 0).toNat ≤ lvl
    · rw [if_neg (not_not.2 h2), neighbourScan_ok hn hl hx hy, ok_bind]
      by_cases h3 : (scanS nbStep (-1, false) (nbs w h lab x y)).1 ≠ -1 ∧
          ((scanS nbStep (-1, false) (nbs w h lab x y)).2 = false ∨ bd = false)
      · have he : wsExp w h d bd lvl lab (y * w + x)
            = some ⟨(x : Nat), (y : Nat), (scanS nbStep (-1, false) (nbs w h lab x y)).1⟩ := by
          unfold wsExp
          rw [if_neg (not_not.2 h1), if_neg (not_not.2 h2), idx_mod hx, idx_div hx]
          exact if_pos h3
        rw [he]
        generalize scanS nbStep (-1, false) (nbs w h lab x y) = r at h3 ⊢
        obtain ⟨nl, ml⟩ := r
        simp only at h3 ⊢
        rw [if_pos h3, i32OfU32_eq (n := x) (by omega), i32OfU32_eq (n := y) (by omega)]
        refine Ok.bind (enqueue_ok hs hn _ _ _) fun q hq => Ok.pure' ⟨hq, by simp⟩
      · have he : wsExp w h d bd lvl lab (y * w + x) = none := by
          unfold wsExp
          rw [if_neg (not_not.2 h1), if_neg (not_not.2 h2), idx_mod hx, idx_div hx]
          exact if_neg h3
        rw [he]
        generalize scanS nbStep (-1, false) (nbs w h lab x y) = r at h3 ⊢
        obtain ⟨nl, ml⟩ := r
        simp only at h3 ⊢
        rw [if_neg h3]
        exact Ok.pure' ⟨hs, by simp⟩
    · have he : wsExp w h d bd lvl lab (y * w + x) = none := by
        unfold wsExp
        rw [if_neg (not_not.2 h1), if_pos h2]
      rw [if_pos h2, he]
      exact Ok.pure' ⟨hs, by simp⟩
  · have he : wsExp w h d bd lvl lab (y * w + x) = none := by
      unfold wsExp
      rw [if_pos h1]
    rw [if_pos h1, he]
    exact Ok.pure' ⟨hs, by simp⟩

/-- All expansions found at the first `k` pixels. -/
def wsExps (w h : Nat) (d : List UInt8) (bd : Bool) (lvl : Nat) (lab : List Int) (k : Nat) :
    List QueueItem := (List.range k).filterMap (wsExp w h d bd lvl lab)

/-- Add several items to a queue of limited capacity. -/
def qpushAll (cap : Nat) (l es : List QueueItem) : List QueueItem := l ++ es.take (cap - l.length)

theorem qpushAll_qpush {cap : Nat} {l es : List QueueItem} (o : Option QueueItem)
    (hl : l.length ≤ cap) :
    qpushO cap (qpushAll cap l es) o = qpushAll cap l (es ++ o.toList) := by
  cases o with
  | none => simp [qpushO]
  | some a =>
    simp only [qpushO, qpush, qpushAll, List.length_append, List.length_take, Option.toList]
    by_cases h : es.length < cap - l.length
    · rw [if_pos (by omega), List.take_of_length_le (by omega),
        List.take_of_length_le (by simp; omega), List.append_assoc]
    · rw [if_neg (by omega), List.take_append_of_le_length (by omega)]

theorem wsExps_succ {w h : Nat} {d : List UInt8} {bd : Bool} {lvl : Nat} {lab : List Int} (k : Nat) :
    wsExps w h d bd lvl lab (k + 1)
      = wsExps w h d bd lvl lab k ++ (wsExp w h d bd lvl lab k).toList := by
  unfold wsExps
  rw [List.range_succ, List.filterMap_append]
  congr 1

theorem wsExps_length {w h : Nat} {d : List UInt8} {bd : Bool} {lvl : Nat} {lab : List Int} (k : Nat) :
    (wsExps w h d bd lvl lab k).length ≤ k := by
  unfold wsExps
  exact (List.length_filterMap_le _ _).trans (by simp)

theorem scanAll_ok {w h : Nat} {d : List UInt8} {bd : Bool} {lvl : Nat} {lab : List Int}
    (hn : w * h ≤ 2147483647) (hd : d.length = w * h) (hl : lab.length = w * h)
    {q : Queue} {l : List QueueItem} (hq : QRep (w * h) q l) :
    Ok (scanAll w h d bd lvl (lab.map some) q) (fun r =>
      QRep (w * h) r.1 (qpushAll (w * h) l (wsExps w h d bd lvl lab (w * h))) ∧
      r.2 = !(wsExps w h d bd lvl lab (w * h)).isEmpty) := by
  let I : Nat → Queue × Bool → Prop := fun k s =>
    QRep (w * h) s.1 (qpushAll (w * h) l (wsExps w h d bd lvl lab k)) ∧
    s.2 = !(wsExps w h d bd lvl lab k).isEmpty
  have h0 : I 0 (q, false) := by
    refine ⟨?_, rfl⟩
    simpa [qpushAll, wsExps] using hq
  unfold scanAll
  have := forN_ok (n := h) (s := (q, false)) (body := fun y s =>
    forN w s fun x s => scanPixel w h d bd lvl (lab.map some) x y s) (fun y s => I (y * w) s)
    (by simpa using h0) ?_
  · rw [Nat.mul_comm h w] at this
    exact this
  · intro y hy s hs
    have := forN_ok (n := w) (s := s)
      (body := fun x s => scanPixel w h d bd lvl (lab.map some) x y s)
      (fun x s => I (y * w + x) s) hs ?_
    · rw [Nat.add_mul, Nat.one_mul]
      exact this
    · intro x hx s hs
      obtain ⟨h1, h2⟩ := hs
      refine (scanPixel_ok hn hd hl hx hy h1).mono ?_
      rintro r ⟨r1, r2⟩
      rw [qpushAll_qpush _ hq.le] at r1
      refine ⟨?_, ?_⟩
      · rw [← Nat.add_assoc, wsExps_succ]; exact r1
      · rw [← Nat.add_assoc, wsExps_succ, r2, h2]
        cases wsExp w h d bd lvl lab (y * w + x) <;> simp

/-! ### Applying the queued expansions -/

/-- The item addresses a pixel of the image. -/
def ItemIn (w h : Nat) (it : QueueItem) : Prop :=
  ∃ x y : Nat, x < w ∧ y < h ∧ it.x = x ∧ it.y = y

/-- Index of the pixel of an item. -/
def itIdx (w : Nat) (it : QueueItem) : Nat := it.y.toNat * w + it.x.toNat

/-- Store the labels of all items, in order. -/
def applyAll (w : Nat) (lab : List Int) (l : List QueueItem) : List Int :=
  l.foldl (fun L it => L.set (itIdx w it) it.label) lab

theorem applyAll_length (w : Nat) (lab : List Int) (l : List QueueItem) :
    (applyAll w lab l).length = lab.length := by
  unfold applyAll
  induction l generalizing lab with
  | nil => rfl
  | cons a t ih => rw [List.foldl_cons, ih]; simp

theorem drain_ok {w h fuel : Nat} (hn : w * h ≤ 2147483647) {lab : List Int}
    (hl : lab.length = w * h) {q : Queue} {l : List QueueItem} (hq : QRep (w * h) q l)
    (hi : ∀ it ∈ l, ItemIn w h it) (hf : l.length < fuel) :
    Ok (drainQueue fuel w (lab.map some) q) (fun r =>
      r.1 = (applyAll w lab l).map some ∧ QRep (w * h) r.2 []) := by
  unfold drainQueue
  induction l generalizing lab q fuel with
  | nil =>
    obtain ⟨fuel, rfl⟩ : ∃ f, fuel = f + 1 := ⟨fuel - 1, by simp at hf; omega⟩
    unfold whileFuel
    have : q.size = 0 := by rw [hq.size]; rfl
    simp only [this, if_true]
    exact Ok.pure ⟨rfl, hq⟩
  | cons a t ih =>
    simp only [List.length_cons] at hf
    obtain ⟨fuel, rfl⟩ : ∃ f, fuel = f + 1 := ⟨fuel - 1, by omega⟩
    unfold whileFuel
    have : ¬ q.size = 0 := by rw [hq.size]; simp; omega
    simp only [this, if_false]
    obtain ⟨r, hr, hr1, hr2⟩ := dequeue_ok hq hn
    obtain ⟨it, q'⟩ := r
    simp only at hr1 hr2
    subst hr1
    rw [hr]
    obtain ⟨x, y, hx, hy, ex, ey⟩ := hi it (by simp)
    have hidx : wsIdx w it.x it.y = ((itIdx w it : Nat) : Int) := by
      rw [ex, ey, wsIdx_eq hx hy hn]
      unfold itIdx
      rw [ex, ey]; simp
    have hlt : itIdx w it < lab.length := by
      unfold itIdx
      rw [ex, ey, hl]
      simpa using idx_lt hx hy
    rw [ok_bind]
    simp only
    rw [hidx, wrZ_gl hlt, ok_bind]
    simp only [pure_bind', Bool.false_eq_true, if_false]
    exact ih (by simpa using hl) hr2 (fun i h => hi i (by simp [h])) (by omega)

end FlatCV
