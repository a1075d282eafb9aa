/-
The output of the decoder.
-/
import Verif.Lemmas.InflateStream

namespace FlatCV

open FlatCV.Model FlatCV.Png

/-- A buffer of `cap` bytes that starts with `l`. -/
def outCells (l : List UInt8) (cap : Nat) : Cells UInt8 := l.map some ++ List.replicate (cap - l.length) none

theorem outCells_length {l : List UInt8} {cap : Nat} (h : l.length ≤ cap) : (outCells l cap).length = cap := by
  rw [outCells, List.length_append, List.length_map, List.length_replicate]
  omega

theorem outCells_rd {l : List UInt8} {cap i : Nat} (h : i < l.length) : rd (outCells l cap) i = .ok (l.getD i 0) := by
  refine rd_ok ?_
  rw [outCells, List.getElem?_append_left (by simpa using h), List.getElem?_map, List.getD_eq_getElem?_getD, List.getElem?_eq_getElem h]
  rfl

theorem outCells_wr {l : List UInt8} {cap : Nat} (h : l.length < cap) (v : UInt8) :
    wr (outCells l cap) l.length v = .ok (outCells (l ++ [v]) cap) := by
  rw [wr_ok (by rw [outCells_length (by omega)]; exact h)]
  congr 1
  rw [outCells, outCells, List.set_append_right _ _ (by simp), List.length_map, Nat.sub_self,
    show cap - l.length = (cap - (l ++ [v]).length) + 1 by rw [List.length_append, List.length_singleton]; omega, List.replicate_succ,
    List.set_cons_zero, List.map_append, List.append_assoc]
  rfl

/-- The output so far is `l`. -/
structure OutIs (z : ZBuf) (l : List UInt8) : Prop where
  out : z.out = outCells l z.out.length
  zout : z.zout = l.length
  le : l.length ≤ z.out.length
  pos : 0 < z.out.length
  lt : z.out.length < 4294967296

/-- The buffer has or gets room for `n` bytes. -/
def CanHold (z : ZBuf) (n : Nat) : Prop := n ≤ z.out.length ∨ ((∀ k, z.grows k = true) ∧ n ≤ 2147483648)

theorem growLimit_ok {need limit : Nat} (h0 : 0 < limit) (hl : limit < 4294967296) :
    Ok (growLimit need limit) (fun r => (∀ l, r = some l → need ≤ l ∧ limit ≤ l ∧ l < 4294967296) ∧ (r = none → 2147483648 < need)) := by
  have key := whileFuel_ok (fuel := 34) (s := (limit, true)) (step := fun t : Nat × Bool =>
      if t.1 < need then
        if 2147483647 < t.1 then (Pure.pure ((t.1, false), true) : CM _) else Pure.pure ((t.1 * 2, true), false)
      else Pure.pure (t, true))
    (fun t => t.2 = true ∧ limit ≤ t.1 ∧ t.1 < 4294967296) (fun t => 33 - Nat.log2 t.1)
    (fun t => (t.2 = true ∧ need ≤ t.1 ∧ limit ≤ t.1 ∧ t.1 < 4294967296) ∨ (t.2 = false ∧ 2147483648 < need))
    ⟨rfl, le_rfl, hl⟩ (by simp only; omega) ?_
  · rw [growLimit]
    refine Ok.bind key ?_
    rintro ⟨t, b⟩ (⟨hb, h1, h2, h3⟩ | ⟨hb, h1⟩)
    · refine Ok.pure' ?_
      cases hb
      rw [if_pos rfl]
      exact ⟨fun l hl => by rw [← Option.some.inj hl]; exact ⟨h1, h2, h3⟩, fun h => by cases h⟩
    · refine Ok.pure' ?_
      cases hb
      rw [if_neg (by simp)]
      exact ⟨fun l hl => (by cases hl), fun _ => h1⟩
  · rintro ⟨t, b⟩ ⟨hb, h1, h2⟩
    simp only at hb h1 h2 ⊢
    by_cases hn : t < need
    · rw [if_pos hn]
      by_cases hb : 2147483647 < t
      · rw [if_pos hb]
        refine Ok.pure' ?_
        rw [if_pos rfl]
        exact Or.inr ⟨rfl, by omega⟩
      · rw [if_neg hb]
        refine Ok.pure' ?_
        rw [if_neg (by simp)]
        refine ⟨⟨rfl, by simp only; omega, by simp only; omega⟩, ?_⟩
        have h3 : Nat.log2 (t * 2) = Nat.log2 t + 1 := by
          rw [Nat.mul_comm, Nat.log2_two_mul (by omega)]
        have h4 : Nat.log2 t < 32 := (Nat.log2_lt (by omega)).2 (by omega)
        simp only [h3]
        omega
    · rw [if_neg hn]
      refine Ok.pure' ?_
      rw [if_pos rfl]
      exact Or.inl ⟨hb, by simp only; omega, h1, h2⟩

/-- The input is untouched. -/
structure SameIn (z z' : ZBuf) : Prop where
  zin : z'.zin = z.zin
  pos : z'.pos = z.pos
  numBits : z'.numBits = z.numBits
  hit : z'.hit = z.hit
  code : z'.code = z.code
  grows : z'.grows = z.grows

theorem SameIn.refl (z : ZBuf) : SameIn z z := ⟨rfl, rfl, rfl, rfl, rfl, rfl⟩

theorem SameIn.wf {z z' : ZBuf} (h : SameIn z z') (hz : WF z) : WF z' := by
  refine ⟨?_, ?_, ?_, ?_⟩
  · rw [h.pos, h.zin]; exact hz.pos
  · rw [h.numBits]; exact hz.nonneg
  · rw [h.numBits]; exact hz.le
  · rw [h.numBits, h.code]; exact hz.code

theorem SameIn.val {z z' : ZBuf} (h : SameIn z z') : z'.val = z.val := by
  rw [ZBuf.val, ZBuf.val, h.zin, h.pos, h.numBits, h.code]

theorem SameIn.left {z z' : ZBuf} (h : SameIn z z') : z'.left = z.left := by
  rw [ZBuf.left, ZBuf.left, h.zin, h.pos, h.numBits]

theorem room_ok {z : ZBuf} {l : List UInt8} (hz : OutIs z l) (n : Nat) :
    Ok (room z n) (fun r => OutIs r.2 l ∧ SameIn z r.2 ∧ z.out.length ≤ r.2.out.length ∧
      (r.1 = true → l.length + n ≤ r.2.out.length) ∧ (∀ m, CanHold z m → l.length + n ≤ m → r.1 = true)) := by
  have hle := hz.le
  have hlt := hz.lt
  have hpos := hz.pos
  rw [room, hz.zout]
  by_cases hr : z.out.length < l.length + n
  · rw [if_pos hr, zexpand, hz.zout]
    rw [Nat.mod_eq_of_lt (show l.length < 4294967296 by omega), Nat.mod_eq_of_lt hlt]
    have hno : ∀ m, CanHold z m → l.length + n ≤ m → (∀ k, z.grows k = true) ∧ l.length + n ≤ 2147483648 := by
      rintro m (hm | ⟨hm1, hm2⟩) hlm
      · omega
      · exact ⟨hm1, by omega⟩
    by_cases hn : 4294967295 - l.length < n
    · rw [if_pos hn]
      exact Ok.pure' ⟨hz, SameIn.refl z, le_rfl, fun h => by simp at h, fun m h1 h2 => by have := hno m h1 h2; omega⟩
    · rw [if_neg hn]
      refine Ok.bind (growLimit_ok (need := l.length + n) hpos hlt) ?_
      rintro r ⟨h1, h2⟩
      cases r with
      | none => exact Ok.pure' ⟨hz, SameIn.refl z, le_rfl, fun h => by simp at h, fun m h3 h4 => by have := hno m h3 h4; have := h2 rfl; omega⟩
      | some c =>
        obtain ⟨h3, h4, h5⟩ := h1 c rfl
        have hap : z.out ++ List.replicate (c - z.out.length) none = outCells l c := by
          conv_lhs => lhs; rw [hz.out]
          rw [outCells, outCells, List.append_assoc, List.replicate_append_replicate]
          congr 2
          omega
        simp only
        by_cases hg : z.grows z.count = true
        · rw [if_pos hg]
          refine Ok.pure' ?_
          rw [hap]
          have hcl : (outCells l c).length = c := outCells_length (by omega)
          refine ⟨⟨?_, rfl, ?_, ?_, ?_⟩, ⟨rfl, rfl, rfl, rfl, rfl, rfl⟩, ?_, fun _ => ?_, fun _ _ _ => rfl⟩ <;> simp only [hcl]
          · omega
          · omega
          · omega
          · omega
          · omega
        · rw [if_neg hg]
          exact Ok.pure' ⟨⟨hz.out, rfl, hz.le, hz.pos, hz.lt⟩, ⟨rfl, rfl, rfl, rfl, rfl, rfl⟩, le_rfl, fun h => by simp at h,
            fun m h6 h7 => absurd ((hno m h6 h7).1 _) hg⟩
  · rw [if_neg hr]
    exact Ok.pure' ⟨hz, SameIn.refl z, le_rfl, fun _ => by simp only; omega, fun _ _ _ => rfl⟩

/-! ### Repetitions -/

theorem copyBack_snoc {d : Nat} (hd : 0 < d) : ∀ (n : Nat) (l : List UInt8), d ≤ l.length → ∃ m, copyBack d n l = some m ∧
    m.length = l.length + n ∧ copyBack d (n + 1) l = some (m ++ [m.getD (m.length - d) 0])
  | 0, l, hl => ⟨l, rfl, rfl, by rw [copyBack, if_pos ⟨hd, hl⟩, copyBack]⟩
  | n + 1, l, hl => by
    obtain ⟨m, h1, h2, h3⟩ := copyBack_snoc hd n (l ++ [l.getD (l.length - d) 0]) (by rw [List.length_append]; omega)
    refine ⟨m, ?_, ?_, ?_⟩
    · rw [copyBack, if_pos ⟨hd, hl⟩, h1]
    · rw [h2, List.length_append, List.length_singleton]; omega
    · rw [copyBack, if_pos ⟨hd, hl⟩, h3]

theorem copyRun_ok {l : List UInt8} {cap d n : Nat} (hd : 0 < d) (hl : d ≤ l.length) (hcap : l.length + n ≤ cap) :
    Ok (copyRun (outCells l cap) l.length n d) (fun r => ∃ m, copyBack d n l = some m ∧ m.length = l.length + n ∧ r = outCells m cap) := by
  rw [copyRun]
  by_cases h1 : d = 1
  · rw [if_pos h1, outCells_rd (by omega), ok_bind]
    subst h1
    refine (forN_ok (n := n) (fun k (r : Cells UInt8) => ∃ m, copyBack 1 k l = some m ∧ m.length = l.length + k ∧ r = outCells m cap ∧
      m.getD (m.length - 1) 0 = l.getD (l.length - 1) 0) ⟨l, rfl, rfl, rfl, rfl⟩ ?_).mono ?_
    · rintro k hk _ ⟨m, h2, h3, rfl, h4⟩
      obtain ⟨m', h5, h6, h7⟩ := copyBack_snoc Nat.one_pos k l hl
      rw [h2] at h5
      cases h5
      rw [← h3, outCells_wr (by omega)]
      refine Ok.pure ⟨_, h7, by rw [List.length_append, List.length_singleton]; omega, by rw [h4], ?_⟩
      rw [h4, List.length_append, List.length_singleton, Nat.add_sub_cancel, List.getD_eq_getElem?_getD, List.getElem?_concat_length]
      rfl
    · rintro r ⟨m, h2, h3, h4, _⟩
      exact ⟨m, h2, h3, h4⟩
  · rw [if_neg h1]
    refine forN_ok (n := n) (fun k (r : Cells UInt8) => ∃ m, copyBack d k l = some m ∧ m.length = l.length + k ∧ r = outCells m cap)
      ⟨l, rfl, rfl, rfl⟩ ?_
    rintro k hk _ ⟨m, h2, h3, rfl⟩
    obtain ⟨m', h5, h6, h7⟩ := copyBack_snoc hd k l hl
    rw [h2] at h5
    cases h5
    rw [show l.length - d + k = m.length - d by omega, outCells_rd (by omega), ok_bind, ← h3, outCells_wr (by omega)]
    exact Ok.pure ⟨_, h7, by rw [List.length_append, List.length_singleton]; omega, rfl⟩

/-- Copying whole blocks. -/
theorem outCells_memcpy {l : List UInt8} {cap p n : Nat} {src : List UInt8} (hs : p + n ≤ src.length) (hcap : l.length + n ≤ cap) :
    memcpyIn (outCells l cap) l.length src p n = .ok (outCells (l ++ (src.drop p).take n) cap) := by
  refine Ok.eq ((forN_ok (n := n) (fun k (r : Cells UInt8) => r = outCells (l ++ (src.drop p).take k) cap)
    (by rw [List.take_zero, List.append_nil]) ?_).mono fun r hr => hr)
  rintro k hk _ rfl
  have hlen : (l ++ (src.drop p).take k).length = l.length + k := by
    rw [List.length_append, List.length_take, List.length_drop]
    omega
  rw [rdIn_ok (List.getElem?_eq_getElem (show p + k < src.length by omega)), ok_bind, ← hlen, outCells_wr (by omega)]
  refine Ok.pure ?_
  rw [List.append_assoc, List.take_add_one, List.getElem?_drop, List.getElem?_eq_getElem (show p + k < src.length by omega)]
  rfl

end FlatCV
