import Verif.Model.Color
import Verif.Spec.Color
import Verif.Spec.Call
import Verif.Lemmas.Image
import Verif.Lemmas.Mem

namespace FlatCV
open Model Spec

theorem char_of_toNat {c : Char} {n : Nat} (h : c.toNat = n) : c = Char.ofNat n := by
  subst h; exact (Char.ofNat_toNat c).symm

theorem digit_hex {c : Char} {v : Nat} (h : Digit c v) : isHexDigit c = true ∧ hexVal c = v ∧ v < 16 := by
  have hv : v < 16 := by
    rcases h with h | h
    · exact (List.getElem?_eq_some_iff.1 h).1
    · exact (List.getElem?_eq_some_iff.1 h).1
  refine ⟨?_, ?_, hv⟩ <;>
  · have : v = 0 ∨ v = 1 ∨ v = 2 ∨ v = 3 ∨ v = 4 ∨ v = 5 ∨ v = 6 ∨ v = 7 ∨ v = 8 ∨ v = 9 ∨
      v = 10 ∨ v = 11 ∨ v = 12 ∨ v = 13 ∨ v = 14 ∨ v = 15 := by omega
    rcases this with rfl | rfl | rfl | rfl | rfl | rfl | rfl | rfl | rfl | rfl | rfl | rfl | rfl |
      rfl | rfl | rfl <;>
    · rcases h with h | h <;>
      · have := Option.some.inj h
        subst this
        decide

theorem hex_digit {c : Char} (h : isHexDigit c = true) : ∃ v, Digit c v := by
  have hle : ∀ a b : Char, decide (a ≤ b) = true → a.toNat ≤ b.toNat := by
    intro a b h
    have : a ≤ b := of_decide_eq_true h
    exact this
  unfold isHexDigit at h
  simp only [Bool.or_eq_true, Bool.and_eq_true] at h
  have hn : (48 ≤ c.toNat ∧ c.toNat ≤ 57) ∨ (65 ≤ c.toNat ∧ c.toNat ≤ 70) ∨
      (97 ≤ c.toNat ∧ c.toNat ≤ 102) := by
    rcases h with (⟨h1, h2⟩ | ⟨h1, h2⟩) | ⟨h1, h2⟩
    · exact Or.inl ⟨hle _ _ h1, hle _ _ h2⟩
    · exact Or.inr (Or.inl ⟨hle _ _ h1, hle _ _ h2⟩)
    · exact Or.inr (Or.inr ⟨hle _ _ h1, hle _ _ h2⟩)
  have : c.toNat = 48 ∨ c.toNat = 49 ∨ c.toNat = 50 ∨ c.toNat = 51 ∨ c.toNat = 52 ∨
      c.toNat = 53 ∨ c.toNat = 54 ∨ c.toNat = 55 ∨ c.toNat = 56 ∨ c.toNat = 57 ∨
      c.toNat = 65 ∨ c.toNat = 66 ∨ c.toNat = 67 ∨ c.toNat = 68 ∨ c.toNat = 69 ∨ c.toNat = 70 ∨
      c.toNat = 97 ∨ c.toNat = 98 ∨ c.toNat = 99 ∨ c.toNat = 100 ∨ c.toNat = 101 ∨
      c.toNat = 102 := by omega
  rcases this with e | e | e | e | e | e | e | e | e | e | e | e | e | e | e | e | e | e | e | e |
    e | e
  · rw [char_of_toNat e]; exact ⟨0, Or.inl rfl⟩
  · rw [char_of_toNat e]; exact ⟨1, Or.inl rfl⟩
  · rw [char_of_toNat e]; exact ⟨2, Or.inl rfl⟩
  · rw [char_of_toNat e]; exact ⟨3, Or.inl rfl⟩
  · rw [char_of_toNat e]; exact ⟨4, Or.inl rfl⟩
  · rw [char_of_toNat e]; exact ⟨5, Or.inl rfl⟩
  · rw [char_of_toNat e]; exact ⟨6, Or.inl rfl⟩
  · rw [char_of_toNat e]; exact ⟨7, Or.inl rfl⟩
  · rw [char_of_toNat e]; exact ⟨8, Or.inl rfl⟩
  · rw [char_of_toNat e]; exact ⟨9, Or.inl rfl⟩
  · rw [char_of_toNat e]; exact ⟨10, Or.inr rfl⟩
  · rw [char_of_toNat e]; exact ⟨11, Or.inr rfl⟩
  · rw [char_of_toNat e]; exact ⟨12, Or.inr rfl⟩
  · rw [char_of_toNat e]; exact ⟨13, Or.inr rfl⟩
  · rw [char_of_toNat e]; exact ⟨14, Or.inr rfl⟩
  · rw [char_of_toNat e]; exact ⟨15, Or.inr rfl⟩
  · rw [char_of_toNat e]; exact ⟨10, Or.inl rfl⟩
  · rw [char_of_toNat e]; exact ⟨11, Or.inl rfl⟩
  · rw [char_of_toNat e]; exact ⟨12, Or.inl rfl⟩
  · rw [char_of_toNat e]; exact ⟨13, Or.inl rfl⟩
  · rw [char_of_toNat e]; exact ⟨14, Or.inl rfl⟩
  · rw [char_of_toNat e]; exact ⟨15, Or.inl rfl⟩

/-- The part of `fcv_parse_hex_color` after the optional `#`. -/
def parseBody (hex : List Char) : UInt8 × UInt8 × UInt8 :=
  if hex.length ≠ 6 then (255, 255, 255)
  else if hex.any (fun c => !isHexDigit c) then (255, 255, 255)
  else
    let v := scanHex hex
    (u8 (v / 65536), u8 (v / 256), u8 v)

theorem parse_hash (s : List Char) : fcv_parse_hex_color ('#' :: s) = parseBody s := rfl

theorem parse_nohash {s : List Char} (h : ∀ t, s ≠ '#' :: t) :
    fcv_parse_hex_color s = parseBody s := by
  have : skipHash s = s := by
    cases s with
    | nil => rfl
    | cons c t =>
      have : c ≠ '#' := fun e => h t (by rw [e])
      simp [skipHash, this]
  unfold fcv_parse_hex_color parseBody
  rw [this]

theorem u8_eq_of {n : Nat} {r : UInt8} (h : n % 256 = r.toNat) : u8 n = r := by
  apply UInt8.toNat_inj.1
  unfold u8
  rw [UInt8.toNat_ofNat']
  exact h

theorem parseBody_spells {s : List Char} {r g b : UInt8} (h : Spells s r g b) :
    parseBody s = (r, g, b) := by
  obtain ⟨c0, c1, c2, c3, c4, c5, rfl, h0, h1, h2, h3, h4, h5⟩ := h
  obtain ⟨d0, v0, l0⟩ := digit_hex h0
  obtain ⟨d1, v1, l1⟩ := digit_hex h1
  obtain ⟨d2, v2, l2⟩ := digit_hex h2
  obtain ⟨d3, v3, l3⟩ := digit_hex h3
  obtain ⟨d4, v4, l4⟩ := digit_hex h4
  obtain ⟨d5, v5, l5⟩ := digit_hex h5
  have hr := r.toNat_lt
  have hg := g.toNat_lt
  have hb := b.toNat_lt
  unfold parseBody scanHex
  simp only [List.length_cons, List.length_nil, List.any_cons, List.any_nil, d0, d1, d2, d3, d4, d5,
    List.foldl_cons, List.foldl_nil, v0, v1, v2, v3, v4, v5]
  simp only [Nat.zero_mul, Nat.zero_add, ne_eq, Nat.reduceAdd, not_true_eq_false, if_false,
    Bool.not_true, Bool.or_self, Bool.false_eq_true]
  rw [u8_eq_of (r := r) (by omega), u8_eq_of (r := g) (by omega), u8_eq_of (r := b) (by omega)]

theorem parseBody_white {s : List Char} (h : ∀ r g b, ¬ Spells s r g b) :
    parseBody s = (255, 255, 255) := by
  unfold parseBody
  by_cases hl : s.length = 6
  · match s, hl with
    | [c0, c1, c2, c3, c4, c5], _ =>
      simp only [List.length_cons, List.length_nil, ne_eq, Nat.reduceAdd, not_true_eq_false, if_false]
      by_cases ha : [c0, c1, c2, c3, c4, c5].any (fun c => !isHexDigit c) = true
      · rw [if_pos ha]
      · exfalso
        simp only [List.any_cons, List.any_nil, Bool.or_false, Bool.or_eq_true, Bool.not_eq_true',
          not_or, Bool.not_eq_false] at ha
        obtain ⟨v0, h0⟩ := hex_digit ha.1
        obtain ⟨v1, h1⟩ := hex_digit ha.2.1
        obtain ⟨v2, h2⟩ := hex_digit ha.2.2.1
        obtain ⟨v3, h3⟩ := hex_digit ha.2.2.2.1
        obtain ⟨v4, h4⟩ := hex_digit ha.2.2.2.2.1
        obtain ⟨v5, h5⟩ := hex_digit ha.2.2.2.2.2
        have l0 := (digit_hex h0).2.2
        have l1 := (digit_hex h1).2.2
        have l2 := (digit_hex h2).2.2
        have l3 := (digit_hex h3).2.2
        have l4 := (digit_hex h4).2.2
        have l5 := (digit_hex h5).2.2
        refine h (UInt8.ofNat (16 * v0 + v1)) (UInt8.ofNat (16 * v2 + v3))
          (UInt8.ofNat (16 * v4 + v5)) ⟨c0, c1, c2, c3, c4, c5, rfl, ?_⟩
        simp only [UInt8.toNat_ofNat']
        have e : ∀ a b, a < 16 → b < 16 → (16 * a + b) % 2 ^ 8 / 16 = a ∧ (16 * a + b) % 2 ^ 8 % 16 = b :=
          by intro a b; omega
        rw [(e v0 v1 l0 l1).1, (e v0 v1 l0 l1).2, (e v2 v3 l2 l3).1, (e v2 v3 l2 l3).2,
          (e v4 v5 l4 l5).1, (e v4 v5 l4 l5).2]
        exact ⟨h0, h1, h2, h3, h4, h5⟩
  · simp [hl]

end FlatCV
