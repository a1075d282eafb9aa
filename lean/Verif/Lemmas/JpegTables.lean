/-
The JPEG decoder: Huffman tables.
-/
import Verif.Lemmas.JpegDecBlock
import Verif.Lemmas.Trim

namespace FlatCV
open Model Jpg

/-! ### Canonical codes -/

theorem numWords_length (c l : Nat) (S : List Nat) : (numWords c l S).length = S.length := by
  induction S generalizing c l with
  | nil => rfl
  | cons s S ih => unfold numWords; simp [ih]

theorem numWords_size (c l : Nat) (S : List Nat) (i : Nat) : ((numWords c l S)[i]?).map (·.2) = S[i]? := by
  induction S generalizing c l i with
  | nil => rfl
  | cons s S ih =>
    unfold numWords
    cases i with
    | zero => rfl
    | succ i => simpa using ih _ _ i

/-- Sorted lengths, none of them shorter than `l`. -/
def SortedFrom : Nat → List Nat → Prop
  | _, [] => True
  | l, s :: S => l ≤ s ∧ SortedFrom s S

theorem SortedFrom.mono {l l' : Nat} (h : l' ≤ l) {S : List Nat} (hS : SortedFrom l S) : SortedFrom l' S := by
  cases S with
  | nil => trivial
  | cons s S => exact ⟨h.trans hS.1, hS.2⟩

theorem numWords_ge : ∀ (S : List Nat) (c l : Nat), SortedFrom l S → ∀ w ∈ numWords c l S, l ≤ w.2 ∧ c * 2 ^ (w.2 - l) ≤ w.1 := by
  intro S
  induction S with
  | nil => intro c l _ w hw; exact absurd hw (by simp [numWords])
  | cons s S ih =>
    intro c l hS w hw
    unfold numWords at hw
    rw [List.mem_cons] at hw
    rcases hw with rfl | hw
    · exact ⟨hS.1, le_rfl⟩
    · obtain ⟨h1, h2⟩ := ih _ _ hS.2 w hw
      refine ⟨hS.1.trans h1, le_trans ?_ h2⟩
      rw [show w.2 - l = (s - l) + (w.2 - s) by have := hS.1; omega, pow_add, ← mul_assoc]
      exact Nat.mul_le_mul_right _ (by omega)

/-- A later word does not begin with an earlier one. -/
def Later (a b : Nat × Nat) : Prop := a.2 ≤ b.2 ∧ (a.1 + 1) * 2 ^ (b.2 - a.2) ≤ b.1

theorem numWords_pairwise : ∀ (S : List Nat) (c l : Nat), SortedFrom l S → (numWords c l S).Pairwise Later := by
  intro S
  induction S with
  | nil => intro c l _; exact List.Pairwise.nil
  | cons s S ih =>
    intro c l hS
    unfold numWords
    exact List.Pairwise.cons (fun w hw => numWords_ge S _ _ hS.2 w hw) (ih _ _ hS.2)

theorem numWords_shift {S : List Nat} {c l : Nat} (h : SortedFrom (l + 1) S) : numWords c l S = numWords (c * 2) (l + 1) S := by
  cases S with
  | nil => rfl
  | cons s S =>
    unfold numWords
    have : c * 2 ^ (s - l) = c * 2 * 2 ^ (s - (l + 1)) := by
      have := h.1
      rw [show s - l = (s - (l + 1)) + 1 by omega, pow_succ]
      ring
    rw [this]

theorem SortedFrom.drop {l : Nat} {S : List Nat} (h : SortedFrom l S) (k : Nat) (l' : Nat) (hl : ∀ i, k ≤ i → i < S.length → l' ≤ S.getD i 0) :
    SortedFrom l' (S.drop k) := by
  induction S generalizing l k with
  | nil => rw [List.drop_nil]; trivial
  | cons s S ih =>
    cases k with
    | zero => exact ⟨hl 0 le_rfl (by simp), h.2⟩
    | succ k =>
      rw [List.drop_succ_cons]
      refine ih h.2 k fun i hi hi' => ?_
      have := hl (i + 1) (by omega) (by simp; omega)
      rwa [List.getD_cons_succ] at this

/-! ### The lengths -/

/-- `c` words of each length. -/
def sizesFrom : Nat → List Nat → List Nat
  | _, [] => []
  | n, c :: cs => List.replicate c (n + 1) ++ sizesFrom (n + 1) cs

theorem sizesFrom_eq (n : Nat) (cs : List Nat) : sizesFrom n cs = (cs.zipIdx n).flatMap fun p => List.replicate p.1 (p.2 + 1) := by
  induction cs generalizing n with
  | nil => rfl
  | cons c cs ih => rw [sizesFrom, ih, List.zipIdx_cons, List.flatMap_cons]

theorem sizesFrom_take (n : Nat) (cs : List Nat) (i : Nat) (c : Nat) (h : cs[i]? = some c) :
    sizesFrom n (cs.take (i + 1)) = sizesFrom n (cs.take i) ++ List.replicate c (n + i + 1) := by
  induction cs generalizing n i with
  | nil => exact absurd h (by simp)
  | cons a cs ih =>
    cases i with
    | zero =>
      rw [List.getElem?_cons_zero, Option.some.injEq] at h
      subst h
      simp [sizesFrom]
    | succ i =>
      rw [List.getElem?_cons_succ] at h
      rw [List.take_succ_cons, List.take_succ_cons, sizesFrom, sizesFrom, ih (n + 1) i h, List.append_assoc, show n + 1 + i + 1 = n + (i + 1) + 1 by omega]

theorem sortedFrom_replicate (c n : Nat) (S : List Nat) (h : SortedFrom n S) : SortedFrom n (List.replicate c n ++ S) := by
  induction c with
  | zero => exact h
  | succ c ih =>
    rw [List.replicate_succ, List.cons_append]
    exact ⟨le_rfl, ih⟩

theorem sizesFrom_sorted (n : Nat) (cs : List Nat) : SortedFrom (n + 1) (sizesFrom n cs) := by
  induction cs generalizing n with
  | nil => trivial
  | cons c cs ih => exact sortedFrom_replicate c (n + 1) _ ((ih (n + 1)).mono (by omega))

theorem sizesFrom_range (n : Nat) (cs : List Nat) : ∀ s ∈ sizesFrom n cs, n + 1 ≤ s ∧ s ≤ n + cs.length := by
  induction cs generalizing n with
  | nil => intro s hs; exact absurd hs (by simp [sizesFrom])
  | cons c cs ih =>
    intro s hs
    rw [sizesFrom, List.mem_append] at hs
    rw [List.length_cons]
    rcases hs with hs | hs
    · have := List.eq_of_mem_replicate hs
      omega
    · have := ih (n + 1) s hs
      omega

theorem huffSizes_ok {size counts : List Nat} (hs : size.length = 257) (hc : counts.length = 16) (hK : (sizesFrom 0 counts).length ≤ 256) :
    ∃ s, huffSizes size counts = .ok (some (s, (sizesFrom 0 counts).length)) ∧ s.length = 257 ∧
      (∀ i < (sizesFrom 0 counts).length, s[i]? = (sizesFrom 0 counts)[i]?) ∧ s[(sizesFrom 0 counts).length]? = some 0 := by
  have key : Ok (huffSizes size counts) fun r => ∃ s, r = some (s, (sizesFrom 0 counts).length) ∧ s.length = 257 ∧
      (∀ i < (sizesFrom 0 counts).length, s[i]? = (sizesFrom 0 counts)[i]?) ∧ s[(sizesFrom 0 counts).length]? = some 0 := by
    unfold huffSizes
    refine Ok.bind (P := fun r => ∃ s, r = some (s, (sizesFrom 0 counts).length) ∧ s.length = 257 ∧
      (∀ i < (sizesFrom 0 counts).length, s[i]? = (sizesFrom 0 counts)[i]?)) ?_ ?_
    · refine (forN_ok (fun n (r : Option (List Nat × Nat)) => ∃ s, r = some (s, (sizesFrom 0 (counts.take n)).length) ∧ s.length = 257 ∧
        (∀ i < (sizesFrom 0 (counts.take n)).length, s[i]? = (sizesFrom 0 (counts.take n))[i]?)) ⟨size, rfl, hs, fun i hi => absurd hi (by simp [sizesFrom])⟩ ?_).mono ?_
      · rintro n hn _ ⟨s, rfl, hl, hp⟩
        obtain ⟨c, hcn⟩ : ∃ c, counts[n]? = some c := ⟨_, List.getElem?_eq_getElem (by omega)⟩
        have hT := sizesFrom_take 0 counts n c hcn
        rw [Nat.zero_add] at hT
        have hlenT : (sizesFrom 0 (counts.take n)).length + c ≤ 256 := by
          have h1 : (sizesFrom 0 (counts.take (n + 1))).length ≤ (sizesFrom 0 counts).length := by
            have gen : ∀ (m : Nat) (cs : List Nat) (i : Nat), (sizesFrom m (cs.take i)).length ≤ (sizesFrom m cs).length := by
              intro m cs
              induction cs generalizing m with
              | nil => intro i; rw [List.take_nil]
              | cons a cs ih =>
                intro i
                cases i with
                | zero => simp [sizesFrom]
                | succ i =>
                  rw [List.take_succ_cons, sizesFrom, sizesFrom, List.length_append, List.length_append]
                  exact Nat.add_le_add_left (ih _ _) _
            exact gen _ _ _
          rw [hT, List.length_append, List.length_replicate] at h1
          omega
        rw [rdIn_ok hcn, ok_bind]
        refine (forN_ok (fun x (r : Option (List Nat × Nat)) => ∃ s, r = some (s, (sizesFrom 0 (counts.take n)).length + x) ∧ s.length = 257 ∧
          (∀ i < (sizesFrom 0 (counts.take n)).length + x, s[i]? = (sizesFrom 0 (counts.take n) ++ List.replicate x (n + 1))[i]?)) ⟨s, rfl, hl, ?_⟩ ?_).mono ?_
        · intro i hi
          rw [List.replicate_zero, List.append_nil]
          exact hp i hi
        · rintro x hx _ ⟨s, rfl, hl, hp⟩
          dsimp only
          unfold wrIn
          rw [if_pos (by omega), ok_bind, if_neg (by omega)]
          refine Ok.of_eq rfl ⟨_, rfl, by rw [List.length_set, hl], fun i hi => ?_⟩
          rw [List.replicate_succ', ← List.append_assoc]
          by_cases he : i = (sizesFrom 0 (counts.take n)).length + x
          · subst he
            rw [List.getElem?_set_self (by omega), List.getElem?_append_right (by simp)]
            simp
          · rw [List.getElem?_set_ne (Ne.symm he), hp i (by omega)]
            exact (List.getElem?_append_left (by rw [List.length_append, List.length_replicate]; omega)).symm
        · rintro _ ⟨s, rfl, hl, hp⟩
          refine ⟨s, ?_, hl, ?_⟩
          · rw [hT, List.length_append, List.length_replicate]
          · intro i hi
            rw [hT] at hi ⊢
            rw [List.length_append, List.length_replicate] at hi
            exact hp i hi
      · rintro _ ⟨s, rfl, hl, hp⟩
        rw [List.take_of_length_le (by omega)] at hp ⊢
        exact ⟨s, rfl, hl, hp⟩
    · rintro _ ⟨s, rfl, hl, hp⟩
      dsimp only
      unfold wrIn
      rw [if_pos (by omega), ok_bind]
      refine Ok.of_eq rfl ⟨_, rfl, by rw [List.length_set, hl], fun i hi => ?_, List.getElem?_set_self (by omega)⟩
      rw [List.getElem?_set_ne (by omega)]
      exact hp i hi
  obtain ⟨r, e, s, rfl, h⟩ := key
  exact ⟨s, e, h⟩

/-! ### Codes -/

theorem getElem?_getD' {l : List Nat} {i : Nat} (h : i < l.length) : l[i]? = some (l.getD i 0) := by
  rw [List.getD_eq_getElem?_getD, List.getElem?_eq_getElem h]
  rfl

/-- The run over the words of one length. -/
theorem huffRun_ok {size S : List Nat} {W : List (Nat × Nat)} {J k0 A : Nat} (hS : ∀ i < S.length, size[i]? = S[i]?) (hz : size[S.length]? = some 0)
    (hJ : 1 ≤ J) (hK : S.length ≤ 256) (hA : A ≤ 65536) (hWv : ∀ w ∈ W, w.1 < 65536) {g : HuffGen} (hk : g.k = k0) (hk0 : k0 ≤ S.length) (hc : g.code = A)
    (hW : W.drop k0 = numWords A J (S.drop k0)) (hl : g.codes.length = 256) (hcd : ∀ i < k0, g.codes[i]? = (W[i]?).map (·.1)) :
    Ok (huffRun size J g) fun g' => k0 ≤ g'.k ∧ g'.k ≤ S.length ∧ g'.code = A + (g'.k - k0) ∧ W.drop g'.k = numWords g'.code J (S.drop g'.k) ∧
      g'.codes.length = 256 ∧ (∀ i < g'.k, g'.codes[i]? = (W[i]?).map (·.1)) ∧ (∀ i, k0 ≤ i → i < g'.k → W[i]? = some (A + (i - k0), J)) ∧
      (g'.k < S.length → S.getD g'.k 0 ≠ J) ∧ g'.maxcode = g.maxcode ∧ g'.delta = g.delta ∧ g'.ok = g.ok ∧
      (k0 < S.length → S.getD k0 0 = J → k0 < g'.k) := by
  unfold huffRun
  refine whileFuel_ok (fun g' : HuffGen => k0 ≤ g'.k ∧ g'.k ≤ S.length ∧ g'.code = A + (g'.k - k0) ∧ W.drop g'.k = numWords g'.code J (S.drop g'.k) ∧
      g'.codes.length = 256 ∧ (∀ i < g'.k, g'.codes[i]? = (W[i]?).map (·.1)) ∧ (∀ i, k0 ≤ i → i < g'.k → W[i]? = some (A + (i - k0), J)) ∧
      g'.maxcode = g.maxcode ∧ g'.delta = g.delta ∧ g'.ok = g.ok) (fun g' => S.length - g'.k) _ ?_ ?_ ?_
  · exact ⟨hk ▸ le_rfl, hk ▸ hk0, by rw [hc, hk]; omega, by rw [hk, hc, hW], hl, by rw [hk]; exact hcd, fun i h1 h2 => by omega, rfl, rfl, rfl⟩
  · omega
  · rintro g' ⟨i1, i2, i3, i4, i5, i6, i7, i8, i9, i10⟩
    by_cases hlt : g'.k < S.length
    · have hs := hS _ hlt
      rw [getElem?_getD' hlt] at hs
      rw [rdIn_ok hs, ok_bind]
      by_cases he : S.getD g'.k 0 = J
      · rw [if_pos he]
        unfold wrIn
        rw [if_pos (by omega), ok_bind]
        have hd : S.drop g'.k = J :: S.drop (g'.k + 1) := by
          rw [List.drop_eq_getElem_cons hlt, ← he, List.getD_eq_getElem?_getD, List.getElem?_eq_getElem hlt]
          rfl
        have hw := i4
        rw [hd, numWords, Nat.sub_self, pow_zero, Nat.mul_one] at hw
        have hwk : W[g'.k]? = some (g'.code, J) := by
          have := congrArg (fun l => l[0]?) hw
          simpa [List.getElem?_drop] using this
        have hcl := hWv _ (List.mem_of_getElem? hwk)
        dsimp only at hcl
        refine Ok.of_eq rfl ⟨⟨by dsimp only; omega, by dsimp only; omega, by dsimp only; omega, ?_, by dsimp only; rw [List.length_set, i5], ?_, ?_, i8, i9, i10⟩, ?_⟩
        · dsimp only
          have := congrArg List.tail hw
          rw [List.tail_drop] at this
          rw [this]
          rfl
        · dsimp only
          intro i hi
          by_cases hie : i = g'.k
          · subst hie
            rw [List.getElem?_set_self (by omega), hwk, Nat.mod_eq_of_lt hcl]
            rfl
          · rw [List.getElem?_set_ne (Ne.symm hie)]
            exact i6 i (by omega)
        · dsimp only
          intro i h1 h2
          by_cases hie : i = g'.k
          · subst hie
            rw [hwk, i3]
          · exact i7 i h1 (by omega)
        · dsimp only
          omega
      · rw [if_neg he]
        refine Ok.of_eq rfl ⟨i1, i2, i3, i4, i5, i6, i7, fun _ => he, i8, i9, i10, fun _ h2 => ?_⟩
        dsimp only
        by_contra hn
        have : g'.k = k0 := by omega
        rw [this] at he
        exact he h2
    · have hek : g'.k = S.length := by omega
      rw [hek, rdIn_ok hz, ok_bind, if_neg (by omega)]
      exact Ok.of_eq rfl ⟨i1, i2, i3, i4, i5, i6, i7, fun h => absurd h hlt, i8, i9, i10, fun h1 _ => by dsimp only; omega⟩

/-- A finished word: its code, and the bounds that find its length. -/
structure WordDone (codes maxcode : List Nat) (delta : List Int) (i : Nat) (w : Nat × Nat) : Prop where
  code : codes[i]? = some w.1
  delta : delta[w.2]? = some ((i : Int) - w.1)
  upper : ∃ m, maxcode[w.2]? = some m ∧ (w.1 + 1) * 2 ^ (16 - w.2) ≤ m
  lower : ∀ l, 1 ≤ l → l < w.2 → ∃ m, maxcode[l]? = some m ∧ m ≤ w.1 * 2 ^ (16 - w.2)

structure GenInv (S : List Nat) (W : List (Nat × Nat)) (j : Nat) (g : HuffGen) : Prop where
  ok : g.ok = true
  kle : g.k ≤ S.length
  before : ∀ i < g.k, S.getD i 0 ≤ j
  after : ∀ i, g.k ≤ i → i < S.length → j + 1 ≤ S.getD i 0
  words : W.drop g.k = numWords g.code (j + 1) (S.drop g.k)
  small : g.code ≤ 2 ^ (j + 1)
  lc : g.codes.length = 256
  lm : g.maxcode.length = 18
  ld : g.delta.length = 17
  done : ∀ (i : Nat) (w : Nat × Nat), i < g.k → W[i]? = some w → WordDone g.codes g.maxcode g.delta i w
  bound : ∀ l, 1 ≤ l → l ≤ j → ∃ m, g.maxcode[l]? = some m ∧ m * 2 ≤ g.code * 2 ^ (16 - j)

theorem huffGen_ok {h : JHuff} {size S : List Nat} (hS : ∀ i < S.length, size[i]? = S[i]?) (hz : size[S.length]? = some 0)
    (hK : S.length ≤ 256) (hso : SortedFrom 1 S) (hr : ∀ s ∈ S, 1 ≤ s ∧ s ≤ 16) (hv : ∀ w ∈ numWords 0 0 S, w.1 < 2 ^ w.2)
    (hlc : h.code.length = 256) (hlm : h.maxcode.length = 18) (hld : h.delta.length = 17) :
    Ok (huffGen h size) fun g => g.ok = true ∧ g.k = S.length ∧ ∀ (i : Nat) (w : Nat × Nat), (numWords 0 0 S)[i]? = some w → WordDone g.codes g.maxcode g.delta i w := by
  have hlen : (numWords 0 0 S).length = S.length := numWords_length _ _ _
  have hsz : ∀ (i : Nat) (w : Nat × Nat), (numWords 0 0 S)[i]? = some w → S[i]? = some w.2 := by
    intro i w hw
    rw [← numWords_size 0 0 S i, hw]
    rfl
  have hw16 : ∀ w ∈ numWords 0 0 S, 1 ≤ w.2 ∧ w.2 ≤ 16 := by
    intro w hw
    obtain ⟨i, hi⟩ := List.mem_iff_getElem?.1 hw
    exact hr _ (List.mem_of_getElem? (hsz i w hi))
  have hw65 : ∀ w ∈ numWords 0 0 S, w.1 < 65536 := by
    intro w hw
    have h1 := hv w hw
    have h2 : 2 ^ w.2 ≤ 2 ^ 16 := Nat.pow_le_pow_right (by norm_num) (hw16 w hw).2
    omega
  generalize hWd : numWords 0 0 S = W at *
  unfold huffGen
  refine Ok.bind (P := GenInv S W 16) ?_ ?_
  · refine forN_ok (GenInv S W) ?_ ?_
    · refine ⟨rfl, Nat.zero_le _, fun i hi => absurd hi (Nat.not_lt_zero _), ?_, ?_, Nat.zero_le _, hlc, hlm, hld, fun i w hi => absurd hi (Nat.not_lt_zero _), fun l h1 h2 => by omega⟩
      · intro i _ hi
        exact (hr _ (List.mem_of_getElem? (getElem?_getD' hi))).1
      · rw [List.drop_zero, List.drop_zero, ← hWd]
        exact numWords_shift hso
    · intro j hj g I
      have hpow : 2 ^ (j + 1) ≤ 2 ^ 16 := Nat.pow_le_pow_right (by norm_num) (by omega)
      have hsm := I.small
      rw [if_pos I.ok]
      unfold wrIn
      rw [if_pos (by have := I.ld; omega), ok_bind]
      dsimp only
      -- the words of this length
      have run : Ok (huffLen size (j + 1) { g with delta := g.delta.set (j + 1) ((g.k : Int) - g.code) }) fun g' =>
          g'.ok = true ∧ g.k ≤ g'.k ∧ g'.k ≤ S.length ∧ g'.code = g.code + (g'.k - g.k) ∧ W.drop g'.k = numWords g'.code (j + 1) (S.drop g'.k) ∧
          g'.codes.length = 256 ∧ (∀ i < g'.k, g'.codes[i]? = (W[i]?).map (·.1)) ∧ (∀ i, g.k ≤ i → i < g'.k → W[i]? = some (g.code + (i - g.k), j + 1)) ∧
          (g'.k < S.length → S.getD g'.k 0 ≠ j + 1) ∧ g'.maxcode = g.maxcode ∧ g'.delta = g.delta.set (j + 1) ((g.k : Int) - g.code) := by
        have hcd : ∀ i < g.k, g.codes[i]? = (W[i]?).map (·.1) := by
          intro i hi
          obtain ⟨w, this⟩ : ∃ w, W[i]? = some w := ⟨_, List.getElem?_eq_getElem (by have := I.kle; omega)⟩
          rw [this, (I.done i _ hi this).code]
          rfl
        unfold huffLen
        dsimp only
        by_cases hlt : g.k < S.length
        · have hs := hS _ hlt
          rw [getElem?_getD' hlt] at hs
          rw [rdIn_ok hs, ok_bind]
          by_cases he : S.getD g.k 0 = j + 1
          · rw [if_pos he]
            refine Ok.bind (huffRun_ok (k0 := g.k) (A := g.code) (g := { g with delta := g.delta.set (j + 1) ((g.k : Int) - g.code) }) hS hz (by omega) hK (by omega) hw65 rfl I.kle rfl I.words I.lc hcd) ?_
            rintro g' ⟨q1, q2, q3, q4, q5, q6, q7, q8, q9, q10, _, q12⟩
            have hgt := q12 hlt he
            have hlast := q7 (g'.k - 1) (by omega) (by omega)
            have hvl := hv _ (List.mem_of_getElem? hlast)
            dsimp only at hvl q10
            refine Ok.of_eq rfl ⟨?_, q1, q2, q3, q4, q5, q6, q7, q8, q9, q10⟩
            dsimp only
            rw [decide_eq_true_eq]
            omega
          · rw [if_neg he]
            exact Ok.of_eq rfl ⟨I.ok, le_rfl, I.kle, (by show g.code = g.code + (g.k - g.k); omega), I.words, I.lc, hcd, fun i h1 h2 => absurd h2 (by show ¬ i < g.k; omega), fun _ => he, rfl, rfl⟩
        · have hek : g.k = S.length := by have := I.kle; omega
          have hz' : size[g.k]? = some 0 := by rw [hek]; exact hz
          rw [rdIn_ok hz', ok_bind, if_neg (by omega)]
          exact Ok.of_eq rfl ⟨I.ok, le_rfl, I.kle, (by show g.code = g.code + (g.k - g.k); omega), I.words, I.lc, hcd, fun i h1 h2 => absurd h2 (by show ¬ i < g.k; omega), fun h => absurd h hlt, rfl, rfl⟩
      refine Ok.bind run ?_
      rintro g' ⟨q0, q1, q2, q3, q4, q5, q6, q7, q8, q9, q10⟩
      rw [if_pos q0, if_pos (by rw [q9, I.lm]; omega), ok_bind]
      have hB : g'.code ≤ 2 ^ (j + 1) := by
        by_cases hgt : g.k < g'.k
        · have hvl := hv _ (List.mem_of_getElem? (q7 (g'.k - 1) (by omega) (by omega)))
          dsimp only at hvl
          omega
        · omega
      have hafter : ∀ i, g'.k ≤ i → i < S.length → j + 1 + 1 ≤ S.getD i 0 := by
        intro i h1 h2
        have h3 := I.after g'.k q1 (by omega)
        have h4 := q8 (by omega)
        have hsd : SortedFrom (S.getD g'.k 0) (S.drop g'.k) := by
          have gen : ∀ (T : List Nat) (l : Nat) (k : Nat), SortedFrom l T → k < T.length → SortedFrom (T.getD k 0) (T.drop k) := by
            intro T
            induction T with
            | nil => intro l k _ hk; exact absurd hk (by simp)
            | cons t T ih =>
              intro l k hT hk
              cases k with
              | zero => exact ⟨le_rfl, hT.2⟩
              | succ k =>
                rw [List.getD_cons_succ, List.drop_succ_cons]
                exact ih t k hT.2 (by simpa using hk)
          exact gen S 1 g'.k hso (by omega)
        have hge : ∀ (T : List Nat) (l : Nat), SortedFrom l T → ∀ t ∈ T, l ≤ t := by
          intro T
          induction T with
          | nil => intro l _ t ht; exact absurd ht (by simp)
          | cons a T ih =>
            intro l hT t ht
            rw [List.mem_cons] at ht
            rcases ht with rfl | ht
            · exact hT.1
            · exact hT.1.trans (ih a hT.2 t ht)
        have : S.getD i 0 ∈ S.drop g'.k := by
          rw [List.mem_iff_getElem?]
          exact ⟨i - g'.k, by rw [List.getElem?_drop, show g'.k + (i - g'.k) = i by omega]; exact getElem?_getD' h2⟩
        have := hge _ _ hsd _ this
        omega
      have hp : g'.code * 2 ^ (16 - (j + 1)) ≤ 65536 := by
        calc g'.code * 2 ^ (16 - (j + 1)) ≤ 2 ^ (j + 1) * 2 ^ (16 - (j + 1)) := Nat.mul_le_mul_right _ hB
          _ = 2 ^ 16 := by rw [← pow_add, show j + 1 + (16 - (j + 1)) = 16 by omega]
      rw [Nat.mod_eq_of_lt (by omega : g'.code * 2 ^ (16 - (j + 1)) < 4294967296), Nat.mod_eq_of_lt (by omega : g'.code * 2 < 4294967296)]
      have hold : ∀ l, 1 ≤ l → l ≤ j → ∃ m, (g'.maxcode.set (j + 1) (g'.code * 2 ^ (16 - (j + 1))))[l]? = some m ∧ m ≤ g.code * 2 ^ (16 - (j + 1)) := by
        intro l h1 h2
        obtain ⟨m, hm1, hm2⟩ := I.bound l h1 h2
        refine ⟨m, by rw [List.getElem?_set_ne (by omega), q9]; exact hm1, ?_⟩
        rw [show 16 - j = 16 - (j + 1) + 1 by omega, pow_succ, ← mul_assoc] at hm2
        omega
      refine Ok.of_eq rfl ⟨q0, q2, ?_, hafter, ?_, ?_, q5, by dsimp only; rw [List.length_set, q9, I.lm], by dsimp only; rw [q10, List.length_set, I.ld], ?_, ?_⟩
      · dsimp only
        intro i hi
        by_cases hik : i < g.k
        · have := I.before i hik
          omega
        · have := hsz i _ (q7 i (by omega) hi)
          rw [List.getD_eq_getElem?_getD, this]
          exact le_rfl
      · dsimp only
        rw [q4]
        exact numWords_shift (SortedFrom.drop hso _ _ hafter)
      · dsimp only
        rw [pow_succ]
        omega
      · dsimp only
        intro i w hi hw
        have hs := hsz i w hw
        have hwr := hw16 w (List.mem_of_getElem? hw)
        have hcode : g'.codes[i]? = some w.1 := by rw [q6 i hi, hw]; rfl
        by_cases hik : i < g.k
        · have D := I.done i w hik hw
          have hle : w.2 ≤ j := by
            have := I.before i hik
            rwa [List.getD_eq_getElem?_getD, hs] at this
          obtain ⟨m, hm1, hm2⟩ := D.upper
          refine ⟨hcode, ?_, ⟨m, by rw [List.getElem?_set_ne (by omega), q9]; exact hm1, hm2⟩, fun l h1 h2 => ?_⟩
          · rw [q10, List.getElem?_set_ne (by omega)]
            exact D.delta
          · obtain ⟨m, hm1, hm2⟩ := D.lower l h1 h2
            exact ⟨m, by rw [List.getElem?_set_ne (by omega), q9]; exact hm1, hm2⟩
        · have hwe := q7 i (by omega) hi
          rw [hw, Option.some.injEq] at hwe
          subst hwe
          dsimp only at *
          refine ⟨hcode, ?_, ⟨_, List.getElem?_set_self (by rw [q9, I.lm]; omega), Nat.mul_le_mul_right _ (by dsimp only; omega)⟩, fun l h1 h2 => ?_⟩
          · dsimp only
            rw [q10, List.getElem?_set_self (by rw [I.ld]; omega)]
            congr 1
            push_cast
            omega
          · dsimp only at h2 ⊢
            obtain ⟨m, hm1, hm2⟩ := hold l h1 (by omega)
            exact ⟨m, hm1, hm2.trans (Nat.mul_le_mul_right _ (by omega))⟩
      · dsimp only
        intro l h1 h2
        by_cases hl : l = j + 1
        · subst hl
          refine ⟨_, List.getElem?_set_self (by rw [q9, I.lm]; omega), ?_⟩
          rw [mul_assoc, mul_assoc, mul_comm 2]
        · obtain ⟨m, hm1, hm2⟩ := hold l h1 (by omega)
          refine ⟨m, hm1, ?_⟩
          calc m * 2 ≤ g.code * 2 ^ (16 - (j + 1)) * 2 := by omega
            _ ≤ g'.code * 2 ^ (16 - (j + 1)) * 2 := Nat.mul_le_mul_right _ (Nat.mul_le_mul_right _ (by omega))
            _ = g'.code * 2 * 2 ^ (16 - (j + 1)) := by ring
  · intro g I
    rw [if_pos I.ok]
    unfold wrIn
    rw [if_pos (by rw [I.lm]; omega), ok_bind]
    have hk : g.k = S.length := by
      by_contra hn
      have h1 := I.kle
      have h2 := I.after g.k le_rfl (by omega)
      have h3 := (hr _ (List.mem_of_getElem? (getElem?_getD' (i := g.k) (l := S) (by omega)))).2
      omega
    refine Ok.of_eq rfl ⟨I.ok, hk, fun i w hw => ?_⟩
    have hi : i < g.k := by
      rw [hk, ← hlen]
      exact (List.getElem?_eq_some_iff.1 hw).1
    have hwr := hw16 w (List.mem_of_getElem? hw)
    have D := I.done i w hi hw
    obtain ⟨m, hm1, hm2⟩ := D.upper
    refine ⟨D.code, D.delta, ⟨m, by dsimp only; rw [List.getElem?_set_ne (by omega)]; exact hm1, hm2⟩, fun l h1 h2 => ?_⟩
    obtain ⟨m, hm1, hm2⟩ := D.lower l h1 h2
    exact ⟨m, by dsimp only; rw [List.getElem?_set_ne (by omega)]; exact hm1, hm2⟩

/-! ### Short codes -/

theorem huffFast_ok {size codes S : List Nat} (hS : ∀ i < S.length, size[i]? = S[i]?) (hK : S.length ≤ 255) (hso : SortedFrom 1 S)
    (hv : ∀ w ∈ numWords 0 0 S, w.1 < 2 ^ w.2) (hc : ∀ (i : Nat) (w : Nat × Nat), (numWords 0 0 S)[i]? = some w → codes[i]? = some w.1) :
    Ok (huffFast size codes S.length) fun fast => fast.length = 512 ∧
      (∀ (i : Nat) (w : Nat × Nat), (numWords 0 0 S)[i]? = some w → w.2 ≤ 9 → ∀ x < 2 ^ (9 - w.2), fast[w.1 * 2 ^ (9 - w.2) + x]? = some i) ∧
      (∀ c < 512, fast[c]? = some 255 ∨ ∃ (i : Nat) (w : Nat × Nat), (numWords 0 0 S)[i]? = some w ∧ w.2 ≤ 9 ∧ c / 2 ^ (9 - w.2) = w.1 ∧ fast[c]? = some i) := by
  have hlen : (numWords 0 0 S).length = S.length := numWords_length _ _ _
  have hsz : ∀ (i : Nat) (w : Nat × Nat), (numWords 0 0 S)[i]? = some w → S[i]? = some w.2 := by
    intro i w hw
    rw [← numWords_size 0 0 S i, hw]
    rfl
  have hpw := numWords_pairwise S 0 0 (hso.mono (by omega))
  generalize hWd : numWords 0 0 S = W at *
  unfold huffFast
  refine (forN_ok (fun n (fast : List Nat) => fast.length = 512 ∧
      (∀ i w, i < n → W[i]? = some w → w.2 ≤ 9 → ∀ x < 2 ^ (9 - w.2), fast[w.1 * 2 ^ (9 - w.2) + x]? = some i) ∧
      (∀ c < 512, fast[c]? = some 255 ∨ ∃ i w, W[i]? = some w ∧ w.2 ≤ 9 ∧ c / 2 ^ (9 - w.2) = w.1 ∧ fast[c]? = some i)) ?_ ?_).mono ?_
  · refine ⟨List.length_replicate, fun i w hi => absurd hi (Nat.not_lt_zero _), fun c hc => Or.inl ?_⟩
    rw [List.getElem?_replicate, if_pos hc]
  · rintro n hn fast ⟨hl, h1, h2⟩
    obtain ⟨w, hw⟩ : ∃ w, W[n]? = some w := ⟨_, List.getElem?_eq_getElem (by omega)⟩
    have hs := hS n hn
    rw [hsz n w hw] at hs
    rw [rdIn_ok hs, ok_bind]
    by_cases h9 : w.2 ≤ 9
    · rw [if_pos h9, rdIn_ok (hc n w hw), ok_bind]
      have hwv := hv w (List.mem_of_getElem? hw)
      have hend : (w.1 + 1) * 2 ^ (9 - w.2) ≤ 512 := by
        calc (w.1 + 1) * 2 ^ (9 - w.2) ≤ 2 ^ w.2 * 2 ^ (9 - w.2) := Nat.mul_le_mul_right _ hwv
          _ = 2 ^ 9 := by rw [← pow_add, show w.2 + (9 - w.2) = 9 by omega]
      rw [Nat.add_mul, Nat.one_mul] at hend
      refine (forN_ok (fun m (f : List Nat) => f.length = 512 ∧ (∀ c < 512, f[c]? = if w.1 * 2 ^ (9 - w.2) ≤ c ∧ c < w.1 * 2 ^ (9 - w.2) + m then some n else fast[c]?))
        ⟨hl, fun c _ => by rw [if_neg (by omega)]⟩ ?_).mono ?_
      · rintro m hm f ⟨fl, hf⟩
        unfold wrIn
        rw [if_pos (by omega)]
        refine Ok.of_eq rfl ⟨by rw [List.length_set, fl], fun c hc => ?_⟩
        by_cases he : c = w.1 * 2 ^ (9 - w.2) + m
        · subst he
          rw [List.getElem?_set_self (by omega), if_pos (by omega), Nat.mod_eq_of_lt (by omega)]
        · rw [List.getElem?_set_ne (Ne.symm he), hf c hc]
          by_cases hb : w.1 * 2 ^ (9 - w.2) ≤ c ∧ c < w.1 * 2 ^ (9 - w.2) + m
          · rw [if_pos hb, if_pos (by omega)]
          · rw [if_neg hb, if_neg (by omega)]
      · rintro f ⟨fl, hf⟩
        refine ⟨fl, ?_, ?_⟩
        · intro i u hi hu hu9 x hx
          by_cases hie : i = n
          · subst hie
            rw [hw, Option.some.injEq] at hu
            subst hu
            rw [hf _ (by omega), if_pos (by omega)]
          · have hlt : Later u w := by
              rw [List.pairwise_iff_getElem] at hpw
              have e1 : W[i]'(by omega) = u := by
                have := List.getElem?_eq_getElem (l := W) (i := i) (by omega)
                rw [hu, Option.some.injEq] at this
                exact this.symm
              have e2 : W[n]'(by omega) = w := by
                have := List.getElem?_eq_getElem (l := W) (i := n) (by omega)
                rw [hw, Option.some.injEq] at this
                exact this.symm
              have := hpw i n (by omega) (by omega) (by omega)
              rwa [e1, e2] at this
            have hb : (u.1 + 1) * 2 ^ (9 - u.2) ≤ w.1 * 2 ^ (9 - w.2) := by
              have := Nat.mul_le_mul_right (2 ^ (9 - w.2)) hlt.2
              rwa [mul_assoc, ← pow_add, show w.2 - u.2 + (9 - w.2) = 9 - u.2 by have := hlt.1; omega] at this
            rw [Nat.add_mul, Nat.one_mul] at hb
            have hpos := Nat.two_pow_pos (9 - w.2)
            rw [hf _ (by omega), if_neg (by omega)]
            exact h1 i u (by omega) hu hu9 x hx
        · intro c hc
          rw [hf c hc]
          by_cases hb : w.1 * 2 ^ (9 - w.2) ≤ c ∧ c < w.1 * 2 ^ (9 - w.2) + 2 ^ (9 - w.2)
          · rw [if_pos hb]
            refine Or.inr ⟨n, w, hw, h9, ?_, rfl⟩
            rw [Nat.div_eq_iff (by positivity)]
            omega
          · rw [if_neg hb]
            exact h2 c hc
    · rw [if_neg h9]
      refine Ok.of_eq rfl ⟨hl, fun i u hi hu hu9 => ?_, h2⟩
      by_cases hie : i = n
      · subst hie
        rw [hw, Option.some.injEq] at hu
        subst hu
        exact absurd hu9 h9
      · exact h1 i u (by omega) hu hu9
  · rintro f ⟨hl, h1, h2⟩
    refine ⟨hl, fun i w hw => h1 i w ?_ hw, h2⟩
    rw [← hlen]
    exact (List.getElem?_eq_some_iff.1 hw).1

/-- A table of which the values are not yet known. -/
structure TableFor (h : JHuff) (S : List Nat) : Prop where
  size : ∀ (i : Nat) (w : Nat × Nat), (numWords 0 0 S)[i]? = some w → h.size[i]? = some w.2
  done : ∀ (i : Nat) (w : Nat × Nat), (numWords 0 0 S)[i]? = some w → WordDone h.code h.maxcode h.delta i w
  short : ∀ (i : Nat) (w : Nat × Nat), (numWords 0 0 S)[i]? = some w → w.2 ≤ 9 → ∀ x < 2 ^ (9 - w.2), h.fast[w.1 * 2 ^ (9 - w.2) + x]? = some i
  cells : ∀ c < 512, h.fast[c]? = some 255 ∨ ∃ (i : Nat) (w : Nat × Nat), (numWords 0 0 S)[i]? = some w ∧ w.2 ≤ 9 ∧ c / 2 ^ (9 - w.2) = w.1 ∧ h.fast[c]? = some i
  lf : h.fast.length = 512
  ls : h.size.length = 257

theorem build_huffman_ok {h : JHuff} {counts : List Nat} (hc : counts.length = 16) (hK : (sizesFrom 0 counts).length ≤ 255)
    (hv : ∀ w ∈ numWords 0 0 (sizesFrom 0 counts), w.1 < 2 ^ w.2)
    (hls : h.size.length = 257) (hlc : h.code.length = 256) (hlm : h.maxcode.length = 18) (hld : h.delta.length = 17) :
    ∃ h', j_build_huffman h counts = .ok (some h') ∧ h'.values = h.values ∧ TableFor h' (sizesFrom 0 counts) := by
  obtain ⟨s, e, sl, s1, s2⟩ := huffSizes_ok hls hc (by omega)
  have hso := sizesFrom_sorted 0 counts
  have hr : ∀ x ∈ sizesFrom 0 counts, 1 ≤ x ∧ x ≤ 16 := by
    intro x hx
    have := sizesFrom_range 0 counts x hx
    omega
  obtain ⟨g, eg, g1, g2, g3⟩ := huffGen_ok (h := h) s1 s2 (by omega) hso hr hv hlc hlm hld
  obtain ⟨f, ef, f1, f2, f3⟩ := huffFast_ok (codes := g.codes) s1 hK hso hv (fun i w hw => (g3 i w hw).code)
  refine ⟨{ h with size := s, code := g.codes, maxcode := g.maxcode, delta := g.delta, fast := f }, ?_, rfl, ?_⟩
  · unfold j_build_huffman
    rw [e, ok_bind]
    dsimp only
    rw [eg, ok_bind, if_pos g1, g2, ef, ok_bind]
    rfl
  · refine ⟨fun i w hw => ?_, g3, f2, f3, f1, sl⟩
    dsimp only
    have hs := numWords_size 0 0 (sizesFrom 0 counts) i
    rw [hw] at hs
    rw [s1 i (by rw [← numWords_length 0 0]; exact (List.getElem?_eq_some_iff.1 hw).1), ← hs]
    rfl

/-- With its values it is the table of the code. -/
theorem tableFor_ok {h : JHuff} {counts vals : List Nat} (hK : (sizesFrom 0 counts).length ≤ 255) (hc : counts.length = 16)
    (hv : ∀ w ∈ numWords 0 0 (sizesFrom 0 counts), w.1 < 2 ^ w.2) (T : TableFor h (sizesFrom 0 counts))
    (hval : ∀ (i v : Nat), vals[i]? = some v → h.values[i]? = some v) (h256 : ∀ v ∈ vals, v < 256) : tableOk h (numCode counts vals) = true := by
  unfold tableOk
  rw [List.all_eq_true]
  rintro ⟨⟨w, v⟩, i⟩ hm
  rw [List.mem_iff_getElem?] at hm
  obtain ⟨n, hn⟩ := hm
  rw [List.getElem?_zipIdx, Option.map_eq_some_iff] at hn
  obtain ⟨e, he, he2⟩ := hn
  rw [Prod.mk.injEq, Nat.zero_add] at he2
  obtain ⟨rfl, rfl⟩ := he2
  unfold numCode at he
  rw [← sizesFrom_eq, List.getElem?_zip_eq_some] at he
  obtain ⟨hw, hvn⟩ := he
  dsimp only at hw hvn ⊢
  have hso := sizesFrom_sorted 0 counts
  have hlen : (numWords 0 0 (sizesFrom 0 counts)).length = (sizesFrom 0 counts).length := numWords_length _ _ _
  have hn : n < (sizesFrom 0 counts).length := by rw [← hlen]; exact (List.getElem?_eq_some_iff.1 hw).1
  have hs := numWords_size 0 0 (sizesFrom 0 counts) n
  rw [hw] at hs
  have hr := sizesFrom_range 0 counts w.2 (List.mem_of_getElem? hs.symm)
  have hwv := hv w (List.mem_of_getElem? hw)
  have D := T.done n w hw
  unfold entryOk
  dsimp only
  rw [T.size n w hw, hval n v hvn]
  have hv256 := h256 v (List.mem_of_getElem? hvn)
  simp only [Bool.and_eq_true, decide_eq_true_eq, beq_self_eq_true, and_true]
  refine ⟨⟨⟨⟨⟨by omega, by omega⟩, hwv⟩, by omega⟩, hv256⟩, ?_⟩
  split
  · rename_i h9
    rw [List.all_eq_true]
    intro x hx
    rw [List.mem_range] at hx
    rw [T.short n w hw h9 x hx]
    simp
  · rename_i h9
    simp only [Bool.and_eq_true]
    refine ⟨⟨⟨⟨?_, ?_⟩, ?_⟩, ?_⟩, ?_⟩
    · have hlt : w.1 / 2 ^ (w.2 - 9) < 512 := by
        rw [Nat.div_lt_iff_lt_mul (by positivity), show 512 = 2 ^ 9 by norm_num, ← pow_add, show 9 + (w.2 - 9) = w.2 by omega]
        exact hwv
      rcases T.cells _ hlt with h5 | ⟨i, u, hu, hu9, hdiv, _⟩
      · rw [h5]; rfl
      · exfalso
        have hpw := numWords_pairwise (sizesFrom 0 counts) 0 0 (hso.mono (by omega))
        rw [List.pairwise_iff_getElem] at hpw
        obtain ⟨hi, eu⟩ := List.getElem?_eq_some_iff.1 hu
        obtain ⟨hn', ew⟩ := List.getElem?_eq_some_iff.1 hw
        have hin : i < n := by
          rcases Nat.lt_trichotomy i n with h | h | h
          · exact h
          · subst h
            rw [hw, Option.some.injEq] at hu
            subst hu
            omega
          · have := hpw n i hn' hi h
            rw [eu, ew] at this
            have := this.1
            omega
        have hL := hpw i n hi hn' hin
        rw [eu, ew] at hL
        rw [Nat.div_div_eq_div_mul, ← pow_add, show w.2 - 9 + (9 - u.2) = w.2 - u.2 by omega] at hdiv
        have h1 := hL.2
        have h2 := (Nat.div_lt_iff_lt_mul (k := 2 ^ (w.2 - u.2)) (x := w.1) (y := u.1 + 1) (by positivity)).1 (by omega)
        omega
    · rw [List.all_eq_true]
      intro x hx
      rw [List.mem_range] at hx
      obtain ⟨m, hm1, hm2⟩ := D.lower (10 + x) (by omega) (by omega)
      rw [hm1]
      exact decide_eq_true hm2
    · obtain ⟨m, hm1, hm2⟩ := D.upper
      rw [hm1]
      exact decide_eq_true hm2
    · rw [D.delta]; simp
    · rw [D.code]; simp

/-- An entry of the table for short codes together with their numbers. -/
def facVal (h : JHuff) (c : Nat) : Int :=
  let i := h.fast.getD c 255
  let rs := h.values.getD i 0
  let len := h.size.getD i 0
  if i < 255 ∧ rs % 16 ≠ 0 ∧ len + rs % 16 ≤ 9 then
    let k : Int := (c * 2 ^ len % 512 / 2 ^ (9 - rs % 16) : Nat)
    let k := if k < 2 ^ (rs % 16 - 1) then k - 2 ^ (rs % 16) + 1 else k
    if -128 ≤ k ∧ k ≤ 127 then k * 256 + (rs / 16 % 16 : Nat) * 16 + (len + rs % 16 : Nat) else 0
  else 0

theorem facVal_pos {h : JHuff} {c : Nat} (h1 : h.fast.getD c 255 < 255)
    (h2 : h.values.getD (h.fast.getD c 255) 0 % 16 ≠ 0 ∧ h.size.getD (h.fast.getD c 255) 0 + h.values.getD (h.fast.getD c 255) 0 % 16 ≤ 9) :
    facVal h c =
      let i := h.fast.getD c 255
      let rs := h.values.getD i 0
      let len := h.size.getD i 0
      let k : Int := (c * 2 ^ len % 512 / 2 ^ (9 - rs % 16) : Nat)
      let k := if k < 2 ^ (rs % 16 - 1) then k - 2 ^ (rs % 16) + 1 else k
      if -128 ≤ k ∧ k ≤ 127 then k * 256 + (rs / 16 % 16 : Nat) * 16 + (len + rs % 16 : Nat) else 0 := by
  unfold facVal
  dsimp only
  rw [if_pos ⟨h1, h2⟩]

theorem fast_ac_ok {h : JHuff} (hv : h.values.length = 256) (hs : h.size.length = 257) (hl : h.fast.length = 512)
    (hi : ∀ i ∈ h.fast, i ≤ 255) :
    ∃ fac, j_build_fast_ac h = .ok fac ∧ ∀ c < 512, fac[c]? = some (facVal h c) := by
  have key : Ok (j_build_fast_ac h) fun fac => ∀ c < 512, fac[c]? = some (facVal h c) := by
    unfold j_build_fast_ac
    refine (forN_ok (fun n (fac : List Int) => fac.length = 512 ∧ ∀ c < 512, fac[c]? = some (if c < n then facVal h c else 0)) ⟨List.length_replicate, ?_⟩ ?_).mono ?_
    · intro c hc
      rw [List.getElem?_replicate, if_pos hc, if_neg (by omega)]
    · intro n hn fac ⟨hfl, hf⟩
      have hfn : h.fast[n]? = some (h.fast.getD n 255) := by
        rw [List.getD_eq_getElem?_getD, List.getElem?_eq_getElem (by omega)]
        rfl
      have hle := hi _ (List.mem_of_getElem? hfn)
      have hval : h.values[h.fast.getD n 255]? = some (h.values.getD (h.fast.getD n 255) 0) := by
        rw [List.getD_eq_getElem?_getD (l := h.values), List.getElem?_eq_getElem (by omega)]
        rfl
      have hsz : h.size[h.fast.getD n 255]? = some (h.size.getD (h.fast.getD n 255) 0) := by
        rw [List.getD_eq_getElem?_getD (l := h.size), List.getElem?_eq_getElem (by omega)]
        rfl
      have hkeep : facVal h n = 0 → ∀ c < 512, fac[c]? = some (if c < n + 1 then facVal h c else 0) := by
        intro h0 c hc
        rw [hf c hc]
        by_cases hcn : c = n
        · subst hcn
          rw [if_neg (by omega), if_pos (by omega), h0]
        · by_cases hlt : c < n
          · rw [if_pos hlt, if_pos (by omega)]
          · rw [if_neg hlt, if_neg (by omega)]
      rw [rdIn_ok hfn, ok_bind]
      by_cases h1 : h.fast.getD n 255 < 255
      · rw [if_pos h1, rdIn_ok hval, ok_bind]
        dsimp only
        rw [rdIn_ok hsz, ok_bind]
        by_cases h2 : h.values.getD (h.fast.getD n 255) 0 % 16 ≠ 0 ∧ h.size.getD (h.fast.getD n 255) 0 + h.values.getD (h.fast.getD n 255) 0 % 16 ≤ 9
        · rw [if_pos h2]
          have hfv := facVal_pos h1 h2
          dsimp only at hfv ⊢
          generalize h.values.getD (h.fast.getD n 255) 0 = rs at *
          generalize h.size.getD (h.fast.getD n 255) 0 = len at *
          generalize (if ((n * 2 ^ len % 512 / 2 ^ (9 - rs % 16) : Nat) : Int) < 2 ^ (rs % 16 - 1) then
            ((n * 2 ^ len % 512 / 2 ^ (9 - rs % 16) : Nat) : Int) - 2 ^ (rs % 16) + 1 else ((n * 2 ^ len % 512 / 2 ^ (9 - rs % 16) : Nat) : Int)) = k at *
          split
          · rename_i h3
            rw [if_pos h3] at hfv
            unfold wrIn
            rw [if_pos (by omega)]
            refine Ok.of_eq rfl ⟨by rw [List.length_set, hfl], fun c hc => ?_⟩
            by_cases hcn : c = n
            · subst hcn
              rw [List.getElem?_set_self (by omega), if_pos (by omega), hfv]
              push_cast
              rfl
            · rw [List.getElem?_set_ne (Ne.symm hcn), hf c hc]
              by_cases hlt : c < n
              · rw [if_pos hlt, if_pos (by omega)]
              · rw [if_neg hlt, if_neg (by omega)]
          · rename_i h3
            rw [if_neg h3] at hfv
            exact Ok.of_eq rfl ⟨hfl, hkeep hfv⟩
        · rw [if_neg h2]
          refine Ok.of_eq rfl ⟨hfl, hkeep ?_⟩
          unfold facVal
          dsimp only
          rw [if_neg (fun e => h2 e.2)]
      · rw [if_neg h1]
        refine Ok.of_eq rfl ⟨hfl, hkeep ?_⟩
        unfold facVal
        dsimp only
        rw [if_neg (fun e => h1 e.1)]
    · intro fac hf c hc
      rw [hf.2 c hc, if_pos hc]
  obtain ⟨fac, e, hf⟩ := key
  exact ⟨fac, e, hf⟩

theorem facVal_ok {h : JHuff} {t : List ((Nat × Nat) × Nat)} (ht : tableOk h t = true) (hl : h.fast.length = 512)
    (hi : ∀ i ∈ h.fast, i = 255 ∨ i < t.length) {fac : List Int} (hf : ∀ c < 512, fac[c]? = some (facVal h c)) : facOk fac h t = true := by
  unfold facOk
  rw [List.all_eq_true]
  intro c hc
  rw [List.mem_range] at hc
  have hfn : h.fast[c]? = some (h.fast.getD c 255) := by
    rw [List.getD_eq_getElem?_getD, List.getElem?_eq_getElem (by omega)]
    rfl
  rw [hf c hc, hfn]
  dsimp only
  rw [Bool.or_eq_true, decide_eq_true_eq]
  by_cases h0 : facVal h c = 0
  · exact Or.inl h0
  right
  rw [Bool.and_eq_true, decide_eq_true_eq]
  unfold facVal at h0 ⊢
  dsimp only at h0 ⊢
  split at h0
  · rename_i h1
    rw [if_pos h1]
    refine ⟨h1.1, ?_⟩
    obtain ⟨e, he⟩ : ∃ e, t[h.fast.getD c 255]? = some e := by
      rcases hi _ (List.mem_of_getElem? hfn) with h2 | h2
      · omega
      · exact ⟨_, List.getElem?_eq_getElem h2⟩
    rw [he]
    have hen := tableOk_get ht he
    unfold entryOk at hen
    simp only [Bool.and_eq_true, decide_eq_true_eq, beq_iff_eq] at hen
    obtain ⟨⟨⟨⟨⟨⟨⟨g1, g16⟩, gc⟩, gi255⟩, gv256⟩, gsz⟩, gval⟩, -⟩ := hen
    have e1 : h.values.getD (h.fast.getD c 255) 0 = e.2 := by rw [List.getD_eq_getElem?_getD, gval]; rfl
    have e2 : h.size.getD (h.fast.getD c 255) 0 = e.1.2 := by rw [List.getD_eq_getElem?_getD, gsz]; rfl
    rw [e1, e2] at h0 h1 ⊢
    simp only [Bool.and_eq_true, decide_eq_true_eq]
    refine ⟨⟨by omega, h1.2.2⟩, ?_⟩
    have e3 : c * 2 ^ e.1.2 % 512 / 2 ^ (9 - e.2 % 16) = c / 2 ^ (9 - e.1.2 - e.2 % 16) % 2 ^ (e.2 % 16) := by
      have p1 : (512 : Nat) = 2 ^ (9 - e.1.2) * 2 ^ e.1.2 := by
        rw [← pow_add, show 9 - e.1.2 + e.1.2 = 9 by omega]
        norm_num
      have p2 : 2 ^ (9 - e.1.2) = 2 ^ (9 - e.1.2 - e.2 % 16) * 2 ^ (e.2 % 16) := by
        rw [← pow_add, show 9 - e.1.2 - e.2 % 16 + e.2 % 16 = 9 - e.1.2 by omega]
      rw [p1, Nat.mul_mod_mul_right, show 9 - e.2 % 16 = (9 - e.1.2 - e.2 % 16) + e.1.2 by omega, pow_add, Nat.mul_div_mul_right _ _ (by positivity),
        p2, Nat.mod_mul_right_div_self]
    rw [e3] at h0 ⊢
    have e4 : (if (((c / 2 ^ (9 - e.1.2 - e.2 % 16) % 2 ^ (e.2 % 16) : Nat)) : Int) < 2 ^ (e.2 % 16 - 1) then
        (((c / 2 ^ (9 - e.1.2 - e.2 % 16) % 2 ^ (e.2 % 16) : Nat)) : Int) - 2 ^ (e.2 % 16) + 1 else ((c / 2 ^ (9 - e.1.2 - e.2 % 16) % 2 ^ (e.2 % 16) : Nat) : Int)) =
        extend (c / 2 ^ (9 - e.1.2 - e.2 % 16) % 2 ^ (e.2 % 16)) (e.2 % 16) := by
      unfold extend
      have : ((((c / 2 ^ (9 - e.1.2 - e.2 % 16) % 2 ^ (e.2 % 16) : Nat)) : Int) < 2 ^ (e.2 % 16 - 1)) ↔
          c / 2 ^ (9 - e.1.2 - e.2 % 16) % 2 ^ (e.2 % 16) < 2 ^ (e.2 % 16 - 1) := by exact_mod_cast Iff.rfl
      by_cases h5 : c / 2 ^ (9 - e.1.2 - e.2 % 16) % 2 ^ (e.2 % 16) < 2 ^ (e.2 % 16 - 1)
      · rw [if_pos h5, if_pos (this.2 h5)]
      · rw [if_neg h5, if_neg (fun e => h5 (this.1 e))]
    rw [e4] at h0 ⊢
    split at h0
    · rename_i h6
      rw [if_pos h6, Nat.mod_eq_of_lt (show e.2 / 16 < 16 by omega)]
      push_cast
      ring
    · exact absurd rfl h0
  · exact absurd rfl h0


end FlatCV
