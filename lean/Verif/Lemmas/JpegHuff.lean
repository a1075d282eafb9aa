/-
The JPEG decoder: Huffman codes and coefficients.
-/
import Verif.Lemmas.JpegEnt

namespace FlatCV
open Model Jpg

/-- Entry `i` of a code as the decoder holds it. -/
def entryOk (h : JHuff) (i : Nat) (e : (Nat × Nat) × Nat) : Bool :=
  decide (1 ≤ e.1.2) && decide (e.1.2 ≤ 16) && decide (e.1.1 < 2 ^ e.1.2) && decide (i < 255) && decide (e.2 < 256) &&
    (h.size[i]? == some e.1.2) && (h.values[i]? == some e.2) &&
    if e.1.2 ≤ 9 then (List.range (2 ^ (9 - e.1.2))).all fun x => h.fast[e.1.1 * 2 ^ (9 - e.1.2) + x]? == some i
    else (h.fast[e.1.1 / 2 ^ (e.1.2 - 9)]? == some 255) &&
      ((List.range (e.1.2 - 10)).all fun x => match h.maxcode[10 + x]? with | some m => decide (m ≤ e.1.1 * 2 ^ (16 - e.1.2)) | none => false) &&
      (match h.maxcode[e.1.2]? with | some m => decide ((e.1.1 + 1) * 2 ^ (16 - e.1.2) ≤ m) | none => false) &&
      (h.delta[e.1.2]? == some ((i : Int) - e.1.1)) && (h.code[i]? == some e.1.1)

/-- All entries of a code. -/
def tableOk (h : JHuff) (t : List ((Nat × Nat) × Nat)) : Bool := t.zipIdx.all fun p => entryOk h p.2 p.1

theorem tableOk_get {h : JHuff} {t : List ((Nat × Nat) × Nat)} (ht : tableOk h t = true) {i : Nat} {e : (Nat × Nat) × Nat} (he : t[i]? = some e) :
    entryOk h i e = true := by
  unfold tableOk at ht
  rw [List.all_eq_true] at ht
  refine ht (e, i) ?_
  rw [List.mem_iff_getElem?]
  exact ⟨i, by rw [List.getElem?_zipIdx, he]; simp⟩

theorem symbol_entry {t : List ((Nat × Nat) × Nat)} {R rest : List Bool} {v : Nat} (h : symbol (asCode t) R = some (v, rest)) :
    ∃ (i : Nat) (e : (Nat × Nat) × Nat), t[i]? = some e ∧ v = e.2 ∧ e.1.2 ≤ R.length ∧ R.take e.1.2 = msb e.1.1 e.1.2 ∧ rest = R.drop e.1.2 := by
  unfold symbol asCode at h
  rw [Option.map_eq_some_iff] at h
  obtain ⟨a, ha, e1⟩ := h
  have hm := List.mem_of_find?_eq_some ha
  have hp := List.find?_some ha
  rw [List.mem_map] at hm
  obtain ⟨e, he, rfl⟩ := hm
  obtain ⟨i, hi⟩ := List.mem_iff_getElem?.1 he
  dsimp only at hp e1
  rw [List.isPrefixOf_iff_prefix] at hp
  obtain ⟨u, hu⟩ := hp
  rw [Prod.mk.injEq, msb_length] at e1
  refine ⟨i, e, hi, e1.1.symm, ?_, ?_, e1.2.symm⟩
  · rw [← hu]
    simp
  · rw [← hu, List.take_append_of_le_length (by simp), List.take_of_length_le (by simp)]

theorem findLen_ok {mc : List Nat} {temp l : Nat} (h10 : 10 ≤ l) (h16 : l ≤ 16) (hlo : ∀ k, 10 ≤ k → k < l → ∃ m, mc[k]? = some m ∧ m ≤ temp)
    (hhi : ∃ m, mc[l]? = some m ∧ temp < m) : findLen mc temp = .ok l := by
  unfold findLen
  have key : ∀ (d k fuel : Nat), k + d = l → 10 ≤ k → d < fuel → whileFuel fuel k (fun k => do
      let m ← rdIn mc k
      pure (if temp < m then (k, true) else (k + 1, false))) = .ok l := by
    intro d
    induction d with
    | zero =>
      intro k fuel hk hk10 hf
      obtain ⟨f, rfl⟩ : ∃ f, fuel = f + 1 := ⟨fuel - 1, by omega⟩
      obtain ⟨m, hm, hlt⟩ := hhi
      have : k = l := by omega
      subst this
      refine whileFuel_stop ?_
      rw [rdIn_ok hm, ok_bind, if_pos hlt]
      rfl
    | succ d ih =>
      intro k fuel hk hk10 hf
      obtain ⟨f, rfl⟩ : ∃ f, fuel = f + 1 := ⟨fuel - 1, by omega⟩
      obtain ⟨m, hm, hle⟩ := hlo k hk10 (by omega)
      rw [← ih (k + 1) f (by omega) (by omega) (by omega)]
      refine whileFuel_cont ?_
      rw [rdIn_ok hm, ok_bind, if_neg (by omega)]
      rfl
  exact key (l - 10) 10 10 (by omega) (by omega) (by omega)

variable {m : UInt8} {tail : List UInt8}

/-- The next symbol. -/
theorem jhuff_ok (hm : m ≠ 0) (hm' : m ≠ 0xFF) {h : JHuff} {t : List ((Nat × Nat) × Nat)} (ht : tableOk h t = true) {j : Ent} {R rest : List Bool}
    (hj : EntOk m tail j R) {v : Nat} (hs : symbol (asCode t) R = some (v, rest)) :
    ∃ j', j_huff_decode j h = .ok ((v : Int), j') ∧ EntOk m tail j' rest ∧ j'.s.file = j.s.file ∧ v < 256 := by
  obtain ⟨i, ⟨⟨c, l⟩, v'⟩, hi, rfl, hl, htk, rfl⟩ := symbol_entry hs
  have he := tableOk_get ht hi
  unfold entryOk at he
  dsimp only at he hl htk ⊢
  simp only [Bool.and_eq_true, decide_eq_true_eq, beq_iff_eq] at he
  obtain ⟨⟨⟨⟨⟨⟨⟨h1, h16⟩, hc⟩, hi255⟩, hv⟩, hsz⟩, hval⟩, he⟩ := he
  unfold j_huff_decode
  obtain ⟨j1, e1, k1, kf, kb⟩ := need_ok hm hm' hj (n := 16) (by omega)
  rw [e1, ok_bind]
  have hlb : (l : Int) ≤ j1.bits := by
    have : l ≤ min 16 R.length := by omega
    omega
  obtain ⟨f1, f2⟩ := front_bits k1 hlb hl
  rw [htk, value_msb, Nat.mod_eq_of_lt hc] at f1
  have hd := drop_ok k1 hlb hl
  have htop : j1.buf / 2 ^ 23 < 512 := by omega
  rw [Nat.mod_eq_of_lt htop]
  by_cases h9 : l ≤ 9
  · rw [if_pos h9, List.all_eq_true] at he
    have e2 : j1.buf / 2 ^ 23 / 2 ^ (9 - l) = c := by
      rw [Nat.div_div_eq_div_mul, ← pow_add, show 23 + (9 - l) = 32 - l by omega, f1]
    have e3 : j1.buf / 2 ^ 23 = c * 2 ^ (9 - l) + j1.buf / 2 ^ 23 % 2 ^ (9 - l) := by
      rw [← e2]
      exact (Nat.div_add_mod' _ _).symm
    have := he (j1.buf / 2 ^ 23 % 2 ^ (9 - l)) (List.mem_range.2 (Nat.mod_lt _ (by positivity)))
    rw [beq_iff_eq, ← e3] at this
    rw [rdIn_ok this, ok_bind, if_pos hi255, rdIn_ok hsz, ok_bind, if_neg (by omega), rdIn_ok hval, ok_bind]
    exact ⟨_, rfl, hd, kf, hv⟩
  · rw [if_neg h9] at he
    simp only [Bool.and_eq_true, beq_iff_eq] at he
    obtain ⟨⟨⟨⟨g1, g2⟩, g3⟩, g4⟩, g5⟩ := he
    have e2 : j1.buf / 2 ^ 23 = c / 2 ^ (l - 9) := by
      rw [← f1, Nat.div_div_eq_div_mul, ← pow_add, show 32 - l + (l - 9) = 23 by omega]
    have e4 : j1.buf / 2 ^ 16 / 2 ^ (16 - l) = c := by
      rw [Nat.div_div_eq_div_mul, ← pow_add, show 16 + (16 - l) = 32 - l by omega, f1]
    have e5 : c * 2 ^ (16 - l) ≤ j1.buf / 2 ^ 16 := by
      rw [← e4]
      exact Nat.div_mul_le_self _ _
    have e6 : j1.buf / 2 ^ 16 < (c + 1) * 2 ^ (16 - l) := by
      rw [← e4]
      exact Nat.lt_mul_of_div_lt (Nat.lt_succ_self _) (by positivity)
    have e7 : findLen h.maxcode (j1.buf / 2 ^ 16) = .ok l := by
      refine findLen_ok (by omega) h16 ?_ ?_
      · intro k hk hkl
        rw [List.all_eq_true] at g2
        have := g2 (k - 10) (List.mem_range.2 (by omega))
        rw [show 10 + (k - 10) = k by omega] at this
        cases hmc : h.maxcode[k]? with
        | none => rw [hmc] at this; exact absurd this (by simp)
        | some q =>
          rw [hmc] at this
          exact ⟨q, rfl, (of_decide_eq_true this).trans e5⟩
      · cases hmc : h.maxcode[l]? with
        | none => rw [hmc] at g3; exact absurd g3 (by simp)
        | some q =>
          rw [hmc] at g3
          exact ⟨q, rfl, lt_of_lt_of_le e6 (of_decide_eq_true g3)⟩
    rw [e2, rdIn_ok g1, ok_bind, if_neg (by omega), e7, ok_bind, if_neg (by omega), if_neg (by omega), rdIn_ok g4, ok_bind]
    dsimp only
    rw [f1, Nat.mod_eq_of_lt hc, show (c : Int) + ((i : Int) - c) = i by ring, if_neg (by omega), Int.toNat_natCast, rdIn_ok hsz, ok_bind, rdIn_ok g5, ok_bind,
      f1, Nat.mod_eq_of_lt hc, if_neg (by omega), rdIn_ok hval, ok_bind]
    exact ⟨_, rfl, hd, kf, hv⟩

theorem or_low {a b n : Nat} (hb : b < 2 ^ n) (h32 : n ≤ 32) : ((a <<< n % 4294967296) ||| b) % 2 ^ n = b ∧ ((a <<< n % 4294967296) ||| b) - b = a <<< n % 4294967296 := by
  have e : a <<< n % 4294967296 = (a % 2 ^ (32 - n)) <<< n := by
    rw [Nat.shiftLeft_eq, Nat.shiftLeft_eq, show 4294967296 = 2 ^ (32 - n) * 2 ^ n by rw [← pow_add, show 32 - n + n = 32 by omega]; norm_num,
      Nat.mul_mod_mul_right]
  rw [e, ← Nat.shiftLeft_add_eq_or_of_lt hb, Nat.add_sub_cancel, Nat.shiftLeft_eq, Nat.mul_comm, Nat.mul_add_mod, Nat.mod_eq_of_lt hb]
  exact ⟨rfl, rfl⟩

/-- The next number. -/
theorem extend_ok (hm : m ≠ 0) (hm' : m ≠ 0xFF) {j : Ent} {R rest : List Bool} (hj : EntOk m tail j R) {n v : Nat} (h1 : 1 ≤ n) (h15 : n ≤ 15)
    (hr : receive n R = some (v, rest)) :
    ∃ j', extend_receive j n = .ok (extend v n, j') ∧ EntOk m tail j' rest ∧ j'.s.file = j.s.file := by
  unfold receive at hr
  split at hr
  · rename_i hn
    rw [Option.some.injEq, Prod.mk.injEq] at hr
    obtain ⟨rfl, rfl⟩ := hr
    unfold extend_receive
    obtain ⟨j1, e1, k1, kf, kb⟩ := need_ok hm hm' hj (n := n) (by omega)
    rw [Nat.min_eq_left hn] at kb
    rw [e1, ok_bind, if_neg (by omega)]
    obtain ⟨f1, f2⟩ := front_bits k1 kb hn
    have hlt := value_lt (R.take n)
    rw [List.length_take, Nat.min_eq_left hn] at hlt
    have hd := drop_ok k1 kb hn
    dsimp only
    rw [f1]
    obtain ⟨o1, o2⟩ := or_low (a := j1.buf) hlt (by omega)
    rw [o1, o2]
    have hs : j1.buf / 2 ^ 31 = 0 ↔ Jpg.value (R.take n) < 2 ^ (n - 1) := by
      rw [← f1, Nat.div_lt_iff_lt_mul (by positivity), ← pow_add, show n - 1 + (32 - n) = 31 by omega]
      exact Nat.div_eq_zero_iff_lt (by positivity)
    refine ⟨_, ?_, hd, kf⟩
    unfold extend
    by_cases hc : Jpg.value (R.take n) < 2 ^ (n - 1)
    · rw [if_pos (hs.2 hc), if_pos hc]
      change Except.ok _ = Except.ok _
      congr 2
      ring
    · rw [if_neg (fun e => hc (hs.1 e)), if_neg hc]
      rfl
  · exact absurd hr (by simp)

/-- The table of short codes together with their numbers. -/
def facOk (fac : List Int) (h : JHuff) (t : List ((Nat × Nat) × Nat)) : Bool :=
  (List.range 512).all fun c => match fac[c]?, h.fast[c]? with
    | some r, some i => decide (r = 0) || (decide (i < 255) && match t[i]? with
      | some e => decide (1 ≤ e.2 % 16) && decide (e.1.2 + e.2 % 16 ≤ 9) &&
        decide (r = extend (c / 2 ^ (9 - e.1.2 - e.2 % 16) % 2 ^ (e.2 % 16)) (e.2 % 16) * 256 + ((e.2 / 16 * 16 + (e.1.2 + e.2 % 16) : Nat) : Int))
      | none => false)
    | _, _ => false

theorem facOk_get {fac : List Int} {h : JHuff} {t : List ((Nat × Nat) × Nat)} (hf : facOk fac h t = true) {c : Nat} (hc : c < 512) :
    ∃ r i, fac[c]? = some r ∧ h.fast[c]? = some i ∧ (r = 0 ∨ (i < 255 ∧ ∃ e, t[i]? = some e ∧ 1 ≤ e.2 % 16 ∧ e.1.2 + e.2 % 16 ≤ 9 ∧
      r = extend (c / 2 ^ (9 - e.1.2 - e.2 % 16) % 2 ^ (e.2 % 16)) (e.2 % 16) * 256 + ((e.2 / 16 * 16 + (e.1.2 + e.2 % 16) : Nat) : Int))) := by
  unfold facOk at hf
  rw [List.all_eq_true] at hf
  have := hf c (List.mem_range.2 hc)
  cases h1 : fac[c]? with
  | none => rw [h1] at this; exact absurd this (by simp)
  | some r =>
    cases h2 : h.fast[c]? with
    | none => rw [h1, h2] at this; exact absurd this (by simp)
    | some i =>
      rw [h1, h2] at this
      refine ⟨r, i, rfl, rfl, ?_⟩
      dsimp only at this
      rw [Bool.or_eq_true, decide_eq_true_eq, Bool.and_eq_true, decide_eq_true_eq] at this
      rcases this with this | ⟨hi, this⟩
      · exact Or.inl this
      · right
        refine ⟨hi, ?_⟩
        cases h3 : t[i]? with
        | none => rw [h3] at this; exact absurd this (by simp)
        | some e =>
          rw [h3] at this
          simp only [Bool.and_eq_true, decide_eq_true_eq] at this
          exact ⟨e, rfl, this.1.1, this.1.2, this.2⟩

/-- The position of coefficient `p`, in zigzag order, in a block. -/
def zagOf (p : Nat) : Nat := jpgZag.getD p 0

theorem zagOf_lt : ∀ p < 64, zagOf p < 64 := by decide +kernel

theorem zagOf_inj : ∀ p < 64, ∀ p' < 64, zagOf p = zagOf p' → p = p' := by decide +kernel

theorem zag_get : ∀ p < 64, jpgZag[p]? = some (zagOf p) := by decide +kernel

/-- The block holds the coefficients `pre`, in zigzag order, times their steps; the others are zero. -/
def Zd (dq : List Nat) (data pre : List Int) : Prop :=
  data.length = 64 ∧ ∀ p < 64, data.getD (zagOf p) 0 = pre.getD p 0 * (dq.getD (zagOf p) 0 : Nat)

theorem getD_zeros (pre : List Int) (r p : Nat) : (pre ++ List.replicate r 0).getD p 0 = pre.getD p 0 := by
  simp only [List.getD_eq_getElem?_getD, List.getElem?_append]
  split
  · rfl
  · rename_i hp
    rw [List.getElem?_eq_none (l := pre) (by omega), List.getElem?_replicate]
    split <;> rfl

theorem Zd.zeros {dq : List Nat} {data pre : List Int} (h : Zd dq data pre) (r : Nat) : Zd dq data (pre ++ List.replicate r 0) :=
  ⟨h.1, fun p hp => by rw [getD_zeros]; exact h.2 p hp⟩

theorem asShort_id {z : Int} (h : |z| ≤ 32767) : asShort z = z := by
  rw [abs_le] at h
  unfold asShort
  rw [Int.emod_eq_of_lt (by omega) (by omega)]
  ring

theorem putCoef_ok {dq : List Nat} (hdq : dq.length = 64) {data pre : List Int} (h : Zd dq data pre) (hp : pre.length < 64) {v : Int}
    (hv : |v * (dq.getD (zagOf pre.length) 0 : Nat)| ≤ 32767) :
    ∃ data', putCoef data dq pre.length v = .ok data' ∧ Zd dq data' (pre ++ [v]) := by
  unfold putCoef
  have hz := zagOf_lt _ hp
  have hq : dq[zagOf pre.length]? = some (dq.getD (zagOf pre.length) 0) := by
    rw [List.getD_eq_getElem?_getD, List.getElem?_eq_getElem (by omega)]
    rfl
  rw [rdIn_ok (zag_get _ hp), ok_bind, rdIn_ok hq, ok_bind, i32_ok (by rw [abs_le] at hv; unfold IsI32; omega), ok_bind, asShort_id hv]
  unfold wrIn
  rw [if_pos (by rw [h.1]; exact hz)]
  refine ⟨_, rfl, by rw [List.length_set]; exact h.1, fun p hp' => ?_⟩
  by_cases e : p = pre.length
  · subst e
    simp only [List.getD_eq_getElem?_getD]
    rw [List.getElem?_set_self (by rw [h.1]; exact hz), List.getElem?_append_right le_rfl]
    simp
  · have hne : zagOf pre.length ≠ zagOf p := fun e' => e (zagOf_inj _ hp _ hp' e').symm
    have := h.2 p hp'
    have e2 : (pre ++ [v]).getD p 0 = pre.getD p 0 := by
      simp only [List.getD_eq_getElem?_getD]
      rcases Nat.lt_or_ge p pre.length with hl | hl
      · rw [List.getElem?_append_left hl]
      · rw [List.getElem?_eq_none (l := pre) (by omega), List.getElem?_eq_none (by simp; omega)]
    rw [e2, ← this]
    simp only [List.getD_eq_getElem?_getD]
    rw [List.getElem?_set_ne hne]

end FlatCV
