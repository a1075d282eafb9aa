/-
The Huffman codes of the JPEG writer and the coding of one block.
-/
import Verif.Lemmas.JpegBits

namespace FlatCV
open Model Jpg

/-! ### The codes -/

/-- The words as numbers with their lengths. -/
def numWords : Nat → Nat → List Nat → List (Nat × Nat)
  | _, _, [] => []
  | code, last, s :: l => (code * 2 ^ (s - last), s) :: numWords (code * 2 ^ (s - last) + 1) s l

theorem words_eq (code last : Nat) (l : List Nat) : words code last l = (numWords code last l).map fun p => msb p.1 p.2 := by
  induction l generalizing code last with
  | nil => rfl
  | cons s l ih =>
    unfold words numWords
    rw [ih]
    rfl

/-- A code whose words are numbers with their lengths. -/
def asCode (l : List ((Nat × Nat) × Nat)) : Code := l.map fun e => (msb e.1.1 e.1.2, e.2)

/-- The words with their values. -/
def numCode (counts vals : List Nat) : List ((Nat × Nat) × Nat) :=
  (numWords 0 0 (counts.zipIdx.flatMap fun p => List.replicate p.1 (p.2 + 1))).zip vals

theorem mkCode_eq (counts vals : List Nat) : mkCode counts vals = asCode (numCode counts vals) := by
  unfold mkCode numCode asCode
  rw [words_eq, List.zip_map_left]
  rfl

/-- The first word is a beginning of the second one only if they are the same. -/
def clear (e f : (Nat × Nat) × Nat) : Bool :=
  !(Nat.ble e.1.2 f.1.2 && Nat.beq (f.1.1 / 2 ^ (f.1.2 - e.1.2)) e.1.1) ||
    (Nat.beq e.1.1 f.1.1 && Nat.beq e.1.2 f.1.2 && Nat.beq e.2 f.2)

/-- No word of the code begins with another one, and all of them have their length. -/
def prefixFree (t : List ((Nat × Nat) × Nat)) : Bool := t.all fun e => Nat.ble (e.1.1 + 1) (2 ^ e.1.2) && t.all (clear e)

/-- The table of the writer has the word of the code for `sym`. -/
def covers (ht : List (Nat × Nat)) (t : List ((Nat × Nat) × Nat)) (sym : Nat) : Bool :=
  match ht[sym]? with
  | none => false
  | some p => Nat.ble p.2 16 && t.any fun e => Nat.beq e.1.1 p.1 && Nat.beq e.1.2 p.2 && Nat.beq e.2 sym

theorem msb_take (v n k : Nat) (h : n ≤ k) : (msb v k).take n = msb (v / 2 ^ (k - n)) n := by
  obtain ⟨j, rfl⟩ : ∃ j, k = n + j := ⟨k - n, by omega⟩
  rw [Nat.add_sub_cancel_left]
  induction j generalizing v with
  | zero => rw [Nat.add_zero, List.take_of_length_le (by simp), pow_zero, Nat.div_one]
  | succ j ih =>
    rw [← Nat.add_assoc, msb_succ, List.take_append_of_le_length (by simp), ih _ (by omega), pow_succ, Nat.mul_comm, Nat.div_div_eq_div_mul]

theorem clear_prefix {e f : (Nat × Nat) × Nat} (he : e.1.1 < 2 ^ e.1.2) (hf : f.1.1 < 2 ^ f.1.2) (hc : clear e f = true)
    (hp : msb e.1.1 e.1.2 <+: msb f.1.1 f.1.2) : e = f := by
  have hl : e.1.2 ≤ f.1.2 := by simpa using hp.length_le
  have h1 := List.prefix_iff_eq_take.1 hp
  rw [msb_length, msb_take _ _ _ hl] at h1
  have h2 := congrArg Jpg.value h1
  rw [value_msb, value_msb, Nat.mod_eq_of_lt he, Nat.mod_eq_of_lt (by
    apply Nat.div_lt_of_lt_mul
    rw [← pow_add, Nat.sub_add_cancel hl]
    exact hf)] at h2
  unfold clear at hc
  rw [h2] at hc
  simp only [Bool.or_eq_true, Bool.not_eq_true', Bool.and_eq_true, Nat.beq_eq, Nat.ble_eq, Bool.and_eq_false_iff, Nat.beq_refl] at hc
  rcases hc with (h | h) | h
  · rw [← Bool.not_eq_true, Nat.ble_eq] at h
    omega
  · simp at h
  · obtain ⟨⟨h3, h4⟩, h5⟩ := h
    exact Prod.ext (Prod.ext (by rw [h2]; exact h3) h4) h5

/-- Symbol `sym` has the word `(v, n)` in the table of the writer, and the reader recognises it. -/
def Coded (ht : List (Nat × Nat)) (t : Code) (sym : Nat) : Prop :=
  ∃ v n, rdIn ht sym = .ok (v, n) ∧ v < 2 ^ n ∧ n ≤ 16 ∧ ∀ rest, symbol t (msb v n ++ rest) = some (sym, rest)

theorem coded_of_covers {ht : List (Nat × Nat)} {t : List ((Nat × Nat) × Nat)} {sym : Nat} (hp : prefixFree t = true)
    (hc : covers ht t sym = true) : Coded ht (asCode t) sym := by
  unfold covers at hc
  cases hs : ht[sym]? with
  | none => rw [hs] at hc; cases hc
  | some p =>
    rw [hs] at hc
    simp only [Bool.and_eq_true, Nat.ble_eq, List.any_eq_true, Nat.beq_eq] at hc
    obtain ⟨h2, e, hmem, ⟨h3, h4⟩, h5⟩ := hc
    unfold prefixFree at hp
    rw [List.all_eq_true] at hp
    have hlt : ∀ f ∈ t, f.1.1 < 2 ^ f.1.2 := fun f hf => by
      have := hp f hf
      rw [Bool.and_eq_true, Nat.ble_eq] at this
      omega
    have hcl : ∀ f ∈ t, ∀ g ∈ t, clear f g = true := fun f hf g hg => by
      have := hp f hf
      rw [Bool.and_eq_true, List.all_eq_true] at this
      exact this.2 g hg
    refine ⟨e.1.1, e.1.2, ?_, hlt e hmem, by omega, fun rest => ?_⟩
    · unfold rdIn
      rw [hs, h3, h4]
    have hm : (msb e.1.1 e.1.2, e.2) ∈ asCode t := List.mem_map.2 ⟨e, hmem, rfl⟩
    unfold symbol
    cases hf : (asCode t).find? (fun f : List Bool × Nat => f.1.isPrefixOf (msb e.1.1 e.1.2 ++ rest)) with
    | none =>
      refine absurd ?_ (List.find?_eq_none.1 hf _ hm)
      simp only [List.isPrefixOf_iff_prefix]
      exact ⟨rest, rfl⟩
    | some f =>
      have hpe := List.find?_some hf
      simp only [List.isPrefixOf_iff_prefix] at hpe
      obtain ⟨g, hg, rfl⟩ := List.mem_map.1 (List.mem_of_find?_eq_some hf)
      have he : g = e := by
        rcases List.prefix_or_prefix_of_prefix hpe ⟨rest, rfl⟩ with h | h
        · exact clear_prefix (hlt g hg) (hlt e hmem) (hcl g hg e hmem) h
        · exact (clear_prefix (hlt e hmem) (hlt g hg) (hcl e hmem g hg) h).symm
      rw [Option.map_some, he, h5]
      simp

/-- The codes as the reader builds them. -/
def codeOfBytes (counts vals : List UInt8) : Code := mkCode ((counts.drop 1).map (·.toNat)) (vals.map (·.toNat))

def yDC : Code := codeOfBytes dcLumCodes dcLumValues
def yAC : Code := codeOfBytes acLumCodes acLumValues
def uvDC : Code := codeOfBytes dcChromCodes dcChromValues
def uvAC : Code := codeOfBytes acChromCodes acChromValues

/-- A pair of tables with which all differences of up to 11 bits and all coefficients of up to 10 bits can be written. -/
structure Tabs (htdc htac : List (Nat × Nat)) (dc ac : Code) : Prop where
  dc : ∀ s, s < 12 → Coded htdc dc s
  eob : Coded htac ac 0
  zrl : Coded htac ac 0xF0
  ac : ∀ r s, r < 16 → 1 ≤ s → s ≤ 10 → Coded htac ac (r * 16 + s)

/-- All symbols that are needed. -/
def coversAll (ht : List (Nat × Nat)) (t : List ((Nat × Nat) × Nat)) : Bool :=
  covers ht t 0 && covers ht t 0xF0 && (List.range 16).all fun r => (List.range 10).all fun s => covers ht t (r * 16 + (s + 1))

theorem tabs_of {htdc htac : List (Nat × Nat)} {dc ac : List ((Nat × Nat) × Nat)} (h1 : prefixFree dc = true) (h2 : prefixFree ac = true)
    (h3 : (List.range 12).all (covers htdc dc) = true) (h4 : coversAll htac ac = true) : Tabs htdc htac (asCode dc) (asCode ac) := by
  unfold coversAll at h4
  simp only [Bool.and_eq_true, List.all_eq_true, List.mem_range] at h3 h4
  obtain ⟨⟨h4, h5⟩, h6⟩ := h4
  refine ⟨fun s hs => coded_of_covers h1 (h3 s hs), coded_of_covers h2 h4, coded_of_covers h2 h5, fun r s hr h1 h2' => ?_⟩
  obtain ⟨k, rfl⟩ : ∃ k, s = k + 1 := ⟨s - 1, by omega⟩
  exact coded_of_covers h2 (h6 r hr k (by omega))

theorem tabs_y : Tabs YDC_HT YAC_HT yDC yAC := by
  unfold yDC yAC codeOfBytes
  rw [mkCode_eq, mkCode_eq]
  exact tabs_of (by decide +kernel) (by decide +kernel) (by decide +kernel) (by decide +kernel)

theorem tabs_uv : Tabs UVDC_HT UVAC_HT uvDC uvAC := by
  unfold uvDC uvAC codeOfBytes
  rw [mkCode_eq, mkCode_eq]
  exact tabs_of (by decide +kernel) (by decide +kernel) (by decide +kernel) (by decide +kernel)

end FlatCV
