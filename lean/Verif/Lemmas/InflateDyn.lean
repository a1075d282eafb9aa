/-
The codes of a block: the fixed ones, and those that are given in the block.
-/
import Verif.Lemmas.InflateBlock

namespace FlatCV

open FlatCV.Model FlatCV.Png

/-- The decoder read what the specification reads. -/
structure ReadsAs {α : Type} (spec : List Bool → Option (α × List Bool)) (z z' : ZBuf) (n : Nat) (a : α) : Prop where
  adv : Adv n z z'
  eq : ∀ bs, num bs = z.val → n ≤ bs.length → spec bs = some (a, bs.drop n)
  needs : ∀ bs p, num bs = z.val → spec bs = some p → n ≤ bs.length

/-- The specification reads nothing that is followed by 32 more bits. -/
def Fails {α : Type} (spec : List Bool → Option (α × List Bool)) (z : ZBuf) : Prop :=
  ∀ bs, num bs = z.val → bs.length = z.left → ∀ a rest, spec bs = some (a, rest) → 32 ≤ rest.length → False

/-- What is left is not longer. -/
def Shrinks {α : Type} (spec : List Bool → Option (α × List Bool)) : Prop :=
  ∀ bs a rest, spec bs = some (a, rest) → rest.length ≤ bs.length

theorem ReadsAs.bind {α β : Type} {s1 : List Bool → Option (α × List Bool)} {s2 : α → List Bool → Option (β × List Bool)} {z z1 z2 : ZBuf}
    {n m : Nat} {a : α} {b : β} (h1 : ReadsAs s1 z z1 n a) (h2 : ReadsAs (s2 a) z1 z2 m b) :
    ReadsAs (fun bs => (s1 bs).bind fun r => s2 r.1 r.2) z z2 (n + m) b := by
  refine ⟨h1.adv.trans h2.adv, ?_, ?_⟩
  · intro bs hb hl
    rw [h1.eq bs hb (by omega), Option.bind_some]
    simp only
    rw [h2.eq _ (by rw [num_drop, hb, h1.adv.val]) (by rw [List.length_drop]; omega), List.drop_drop]
  · intro bs p hb hp
    rw [Option.bind_eq_some_iff] at hp
    obtain ⟨r, hr, hp⟩ := hp
    have hn := h1.needs bs r hb hr
    rw [h1.eq bs hb hn] at hr
    cases hr
    have := h2.needs _ p (by simp only; rw [num_drop, hb, h1.adv.val]) hp
    simp only [List.length_drop] at this
    omega

theorem ReadsAs.bind_fails {α β : Type} {s1 : List Bool → Option (α × List Bool)} {s2 : α → List Bool → Option (β × List Bool)} {z z1 : ZBuf}
    {n : Nat} {a : α} (h1 : ReadsAs s1 z z1 n a) (h2 : Fails (s2 a) z1) (hs : Shrinks (s2 a)) :
    Fails (fun bs => (s1 bs).bind fun r => s2 r.1 r.2) z := by
  intro bs hb hl b rest hp h32
  simp only at hp
  rw [Option.bind_eq_some_iff] at hp
  obtain ⟨r, hr, hp⟩ := hp
  have hn := h1.needs bs r hb hr
  rw [h1.eq bs hb hn] at hr
  cases hr
  have hle := hs _ _ _ hp
  simp only [List.length_drop] at hle
  have := (h1.adv.left (by omega)).1
  exact h2 _ (by simp only; rw [num_drop, hb, h1.adv.val]) (by simp only [List.length_drop]; omega) b rest hp h32

theorem Fails.bind {α β : Type} {s1 : List Bool → Option (α × List Bool)} {s2 : α → List Bool → Option (β × List Bool)} {z : ZBuf}
    (h1 : Fails s1 z) (hs : ∀ a, Shrinks (s2 a)) : Fails (fun bs => (s1 bs).bind fun r => s2 r.1 r.2) z := by
  intro bs hb hl b rest hp h32
  simp only at hp
  rw [Option.bind_eq_some_iff] at hp
  obtain ⟨r, hr, hp⟩ := hp
  exact h1 bs hb hl r.1 r.2 hr (h32.trans (hs r.1 _ _ _ hp))

theorem Shrinks.bind {α β : Type} {s1 : List Bool → Option (α × List Bool)} {s2 : α → List Bool → Option (β × List Bool)}
    (h1 : Shrinks s1) (h2 : ∀ a, Shrinks (s2 a)) : Shrinks (fun bs => (s1 bs).bind fun r => s2 r.1 r.2) := by
  intro bs b rest hp
  simp only at hp
  rw [Option.bind_eq_some_iff] at hp
  obtain ⟨r, hr, hp⟩ := hp
  exact (h2 r.1 _ _ _ hp).trans (h1 _ r.1 r.2 hr)

theorem takeNum_shrinks (n : Nat) : Shrinks (takeNum n) := by
  intro bs a rest h
  obtain ⟨_, _, rfl⟩ := takeNum_some h
  rw [List.length_drop]
  omega

theorem readCode_shrinks (lens : List Nat) : Shrinks (readCode lens) := by
  intro bs a rest h
  rw [readCode, Option.map_eq_some_iff] at h
  obtain ⟨i, _, h⟩ := h
  cases h
  rw [List.length_drop]
  omega

theorem pure_shrinks {α : Type} (a : α) : Shrinks (fun bs => some (a, bs)) := by
  intro bs b rest h
  cases h
  exact le_rfl

theorem none_shrinks {α : Type} : Shrinks (fun _ => (none : Option (α × List Bool))) := by
  intro bs b rest h
  cases h

theorem none_fails {α : Type} (z : ZBuf) : Fails (fun _ => (none : Option (α × List Bool))) z := by
  intro bs hb hl b rest h
  cases h

theorem pure_reads {α : Type} (a : α) {z : ZBuf} (hz : WF z) : ReadsAs (fun bs => some (a, bs)) z z 0 a :=
  ⟨Adv.refl hz, fun bs _ _ => by rw [List.drop_zero], fun bs _ _ _ => Nat.zero_le _⟩

theorem zreceive_reads {z : ZBuf} (hz : WF z) {n : Nat} (hn : n ≤ 25) :
    Ok (zreceive z n) (fun r => ReadsAs (takeNum n) z r.2 n r.1 ∧ r.1 < 2 ^ n) := by
  refine (zreceive_ok hz hn).mono ?_
  rintro ⟨v, z'⟩ ⟨h1, h2⟩
  simp only at h1 h2 ⊢
  refine ⟨⟨h2, fun bs hb hl => ?_, fun bs p hb hp => ?_⟩, ?_⟩
  · rw [takeNum_eq hl, h1, hb]
  · exact (takeNum_some (v := p.1) (rest := p.2) hp).1
  · rw [h1]
    exact Nat.mod_lt _ (by positivity)

theorem decode_reads {lens : List Nat} {h : ZHuff} (ht : Tab lens h) {z : ZBuf} (hz : WF z) :
    Ok (zhuffman_decode z h) (fun r => match r.1 with
      | some i => ReadsAs (readCode lens) z r.2 (lens.getD i 0) i ∧ i < lens.length
      | none => Fails (readCode lens) z) := by
  refine (zhuffman_decode_ok ht hz).mono ?_
  rintro ⟨s, z'⟩ hd
  cases s with
  | some i =>
    obtain ⟨h1, h2⟩ := hd
    refine ⟨⟨h2, fun bs hb hl => ?_, fun bs p hb hp => ?_⟩, h1.1⟩
    · exact readCode_eq ht.feasible ht.le15 (by rw [hb]; exact h1) hl
    · obtain ⟨h3, h4, _⟩ := readCode_some ht.feasible ht.le15 hp
      rw [hb] at h3
      rwa [h3.unique h1] at h4
  | none =>
    intro bs hb hl a rest hp h32
    obtain ⟨h3, h4, h5⟩ := readCode_some ht.feasible ht.le15 hp
    simp only at h3 h4 h5
    have := readCode_shrinks lens _ _ _ hp
    rw [hb] at h3
    exact hd.2 (by omega) a h3

/-! ### The lengths of the codes for lengths -/

/-- Numbers of three bits. -/
def numsOf (v n : Nat) : List Nat := (List.range n).map fun i => v / 2 ^ (3 * i) % 8

theorem numsOf_succ (v n : Nat) : numsOf v (n + 1) = v % 8 :: numsOf (v / 8) n := by
  rw [numsOf, List.range_succ_eq_map, List.map_cons, List.map_map, numsOf]
  congr 1
  · simp
  · refine List.map_congr_left fun i _ => ?_
    simp only [Function.comp]
    rw [Nat.div_div_eq_div_mul, show (8 : Nat) = 2 ^ 3 from rfl, ← pow_add, show 3 + 3 * i = 3 * (i + 1) by ring]

theorem readNums_eq : ∀ (n : Nat) (bs : List Bool), 3 * n ≤ bs.length → readNums 3 n bs = some (numsOf (num bs) n, bs.drop (3 * n))
  | 0, bs, _ => by rw [readNums]; rfl
  | n + 1, bs, h => by
    rw [readNums, takeNum_eq (by omega), Option.bind_some]
    simp only
    rw [readNums_eq n _ (by rw [List.length_drop]; omega), Option.map_some, num_drop, List.drop_drop, numsOf_succ,
      show 3 + 3 * n = 3 * (n + 1) by ring]
    rfl

theorem readNums_needs : ∀ (n : Nat) (bs : List Bool) (p : List Nat × List Bool), readNums 3 n bs = some p → 3 * n ≤ bs.length
  | 0, _, _, _ => Nat.zero_le _
  | n + 1, bs, p, h => by
    rw [readNums, Option.bind_eq_some_iff] at h
    obtain ⟨v, hv, h⟩ := h
    obtain ⟨h1, _, h2⟩ := takeNum_some (v := v.1) (rest := v.2) hv
    rw [Option.map_eq_some_iff] at h
    obtain ⟨q, h3, _⟩ := h
    have := readNums_needs n _ q h3
    rw [h2, List.length_drop] at this
    omega

/-- The lengths in the order of the symbols. -/
def clOf (nums : List Nat) : List Nat := (List.range 19).map fun s => nums.getD (clOrder.idxOf s) 0

theorem order_iff : ∀ i, i < 19 → ∀ s, s < 19 → (clOrder.idxOf s = i ↔ dezigzag[i]? = some s) := by decide

theorem dezigzag_get : ∀ i, i < 19 → ∃ d, dezigzag[i]? = some d ∧ d < 19 := by
  have : ∀ i, i < 19 → dezigzag[i]? = some (dezigzag.getD i 0) ∧ dezigzag.getD i 0 < 19 := by decide
  intro i hi
  exact ⟨_, this i hi⟩

theorem numsOf_getD (v n i : Nat) : (numsOf v n).getD i 0 = if i < n then v / 2 ^ (3 * i) % 8 else 0 := by
  rw [numsOf, List.getD_eq_getElem?_getD, List.getElem?_map]
  by_cases h : i < n
  · rw [if_pos h, List.getElem?_range h]; rfl
  · rw [if_neg h, List.getElem?_eq_none (by simp; omega)]; rfl

theorem clOf_step (v : Nat) {i d : Nat} (hi : i < 19) (hd : dezigzag[i]? = some d) :
    (clOf (numsOf v i)).set d (v / 2 ^ (3 * i) % 8) = clOf (numsOf v (i + 1)) := by
  have hd19 : d < 19 := by
    obtain ⟨d', h1, h2⟩ := dezigzag_get i hi
    rw [hd] at h1
    cases h1
    exact h2
  apply List.ext_getElem?
  intro s
  by_cases hs : s < 19
  · rw [get_set (by rw [clOf, List.length_map, List.length_range]; exact hd19), clOf, clOf, List.getElem?_map, List.getElem?_map,
      List.getElem?_range hs, Option.map_some, Option.map_some, numsOf_getD, numsOf_getD]
    have hio := order_iff i hi s hs
    by_cases hds : d = s
    · subst hds
      rw [if_pos rfl, hio.2 hd, if_pos (by omega)]
    · rw [if_neg hds]
      have : clOrder.idxOf s ≠ i := fun h => hds (by have := hio.1 h; rw [hd] at this; exact Option.some.inj this)
      by_cases h1 : clOrder.idxOf s < i
      · rw [if_pos h1, if_pos (by omega)]
      · rw [if_neg h1, if_neg (by omega)]
  · rw [List.getElem?_eq_none (by rw [List.length_set, clOf, List.length_map, List.length_range]; omega),
      List.getElem?_eq_none (by rw [clOf, List.length_map, List.length_range]; omega)]

theorem clOf_le (v n i : Nat) : (clOf (numsOf v n)).getD i 0 ≤ 15 := by
  rw [List.getD_eq_getElem?_getD, clOf, List.getElem?_map]
  by_cases h : i < 19
  · rw [List.getElem?_range h, Option.map_some, Option.getD_some, numsOf_getD]
    split_ifs
    · have := Nat.mod_lt (v / 2 ^ (3 * clOrder.idxOf i)) (show 0 < 8 by norm_num)
      omega
    · omega
  · rw [List.getElem?_eq_none (by simp; omega)]
    exact Nat.zero_le _

theorem clSizes_ok {n : Nat} (hn : n ≤ 19) {z : ZBuf} (hz : WF z) :
    Ok (readCodeLengthSizes n z) (fun r => r.1 = clOf (numsOf z.val n) ∧ ReadsAs (readNums 3 n) z r.2 (3 * n) (numsOf z.val n)) := by
  have key : Ok (readCodeLengthSizes n z) (fun r => r.1 = clOf (numsOf z.val n) ∧ Adv (3 * n) z r.2) := by
    rw [readCodeLengthSizes]
    refine forN_ok (fun i (r : List Nat × ZBuf) => r.1 = clOf (numsOf z.val i) ∧ Adv (3 * i) z r.2) ⟨rfl, Adv.refl hz⟩ ?_
    · rintro i hi ⟨l, y⟩ ⟨h1, h2⟩
      simp only at h1 h2 ⊢
      subst h1
      refine Ok.bind (zreceive_ok h2.wf (show 3 ≤ 25 by norm_num)) ?_
      rintro ⟨s, y'⟩ ⟨h3, h4⟩
      simp only at h3 h4 ⊢
      obtain ⟨d, hd, hd19⟩ := dezigzag_get i (by omega)
      have h8 : s < 8 := by rw [h3]; exact Nat.mod_lt _ (by norm_num)
      rw [rdIn_ok hd, ok_bind, Nat.mod_eq_of_lt (by omega), wrIn, if_pos (by rw [clOf, List.length_map, List.length_range]; exact hd19), ok_bind]
      refine Ok.pure' ⟨?_, ?_⟩
      · simp only
        rw [← clOf_step z.val (show i < 19 by omega) hd, h3, h2.val]
        rfl
      · exact h2.trans h4
  refine key.mono ?_
  rintro ⟨l, y⟩ ⟨h1, h2⟩
  refine ⟨h1, h2, fun bs hb hl => ?_, fun bs p hb hp => readNums_needs n bs p hp⟩
  rw [readNums_eq n bs hl, hb]

/-! ### The lengths of the codes -/

/-- The array for the lengths, the first of which are known. -/
def lenCells (acc : List Nat) : Cells Nat := acc.map some ++ List.replicate (455 - acc.length) none

theorem lenCells_length {acc : List Nat} (h : acc.length ≤ 455) : (lenCells acc).length = 455 := by
  rw [lenCells, List.length_append, List.length_map, List.length_replicate]
  omega

theorem lenCells_wr {acc : List Nat} (h : acc.length < 455) (v : Nat) :
    wr (lenCells acc) acc.length v = .ok (lenCells (acc ++ [v])) := by
  rw [wr_ok (by rw [lenCells_length (by omega)]; exact h)]
  congr 1
  rw [lenCells, lenCells, List.set_append_right _ _ (by simp), List.length_map, Nat.sub_self,
    show 455 - acc.length = (455 - (acc ++ [v]).length) + 1 by rw [List.length_append, List.length_singleton]; omega, List.replicate_succ,
    List.set_cons_zero, List.map_append, List.append_assoc]
  rfl

theorem lenCells_fill {acc : List Nat} {k : Nat} (h : acc.length + k ≤ 455) (v : Nat) :
    (forN k (lenCells acc) fun i codes => wr codes (acc.length + i) v) = .ok (lenCells (acc ++ List.replicate k v)) := by
  refine Ok.eq ((forN_ok (fun i (r : Cells Nat) => r = lenCells (acc ++ List.replicate i v)) (by simp) ?_).mono fun r hr => hr)
  rintro i hi _ rfl
  have hl : (acc ++ List.replicate i v).length = acc.length + i := by rw [List.length_append, List.length_replicate]
  rw [← hl, lenCells_wr (by omega)]
  refine Ok.pure ?_
  rw [List.append_assoc, ← List.replicate_succ']

theorem lenCells_last {acc : List Nat} (h : acc.length ≠ 0) :
    ∃ v, acc.getLast? = some v ∧ rd (lenCells acc) (acc.length - 1) = .ok v ∧ v ∈ acc := by
  have hlt : acc.length - 1 < acc.length := by omega
  refine ⟨acc[acc.length - 1], ?_, rd_ok ?_, List.getElem_mem hlt⟩
  · rw [List.getLast?_eq_getElem?, List.getElem?_eq_getElem hlt]
  · rw [lenCells, List.getElem?_append_left (by simpa using hlt), List.getElem?_map, List.getElem?_eq_getElem hlt]
    rfl

/-- One run of equal lengths, after the symbol. -/
def runOf (last : Option Nat) (s : Nat) (bs : List Bool) : Option ((Nat × Nat) × List Bool) :=
  if s < 16 then some ((s, 1), bs)
  else if s = 16 then last.bind fun v => (takeNum 2 bs).map fun k => ((v, k.1 + 3), k.2)
  else if s = 17 then (takeNum 3 bs).map fun k => ((0, k.1 + 3), k.2)
  else if s = 18 then (takeNum 7 bs).map fun k => ((0, k.1 + 11), k.2)
  else none

theorem readRun_eq (cl : List Nat) (last : Option Nat) : readRun cl last = fun bs => (readCode cl bs).bind fun r => runOf last r.1 r.2 := rfl

theorem map_reads {α β : Type} {spec : List Bool → Option (α × List Bool)} {z z' : ZBuf} {n : Nat} {a : α} (h : ReadsAs spec z z' n a)
    (g : α → β) : ReadsAs (fun bs => (spec bs).map fun k => (g k.1, k.2)) z z' n (g a) := by
  refine ⟨h.adv, fun bs hb hl => by rw [h.eq bs hb hl]; rfl, fun bs p hb hp => ?_⟩
  rw [Option.map_eq_some_iff] at hp
  obtain ⟨q, hq, _⟩ := hp
  exact h.needs bs q hb hq

theorem map_shrinks {α β : Type} {spec : List Bool → Option (α × List Bool)} (h : Shrinks spec) (g : α → β) :
    Shrinks (fun bs => (spec bs).map fun k => (g k.1, k.2)) := by
  intro bs b rest hp
  simp only at hp
  rw [Option.map_eq_some_iff] at hp
  obtain ⟨q, hq, hqe⟩ := hp
  cases hqe
  exact h bs q.1 q.2 hq

theorem runOf_shrinks (last : Option Nat) (s : Nat) : Shrinks (runOf last s) := by
  unfold runOf
  split_ifs
  · exact pure_shrinks _
  · cases last with
    | none => exact none_shrinks
    | some v => exact map_shrinks (takeNum_shrinks 2) fun k => (v, k + 3)
  · exact map_shrinks (takeNum_shrinks 3) fun k => (0, k + 3)
  · exact map_shrinks (takeNum_shrinks 7) fun k => (0, k + 11)
  · exact none_shrinks

theorem repeatOf_ok {c : Nat} (hc : 16 ≤ c) {acc : List Nat} (h15 : ∀ v ∈ acc, v ≤ 15) {z : ZBuf} (hz : WF z) :
    Ok (repeatOf c acc.length (lenCells acc) z) (fun r => match r.1 with
      | some p => ∃ n, ReadsAs (runOf acc.getLast? c) z r.2 n p ∧ p.1 ≤ 15 ∧ 0 < p.2
      | none => Fails (runOf acc.getLast? c) z) := by
  have h0 : ¬ c < 16 := by omega
  rw [repeatOf]
  by_cases h16 : c = 16
  · rw [if_pos h16]
    refine Ok.bind (zreceive_reads hz (show 2 ≤ 25 by norm_num)) ?_
    rintro ⟨k, y⟩ ⟨hk, _⟩
    simp only at hk ⊢
    by_cases hn : acc.length = 0
    · rw [if_pos hn]
      refine Ok.pure' ?_
      have : acc = [] := List.length_eq_zero_iff.1 hn
      subst this
      have : runOf ([] : List Nat).getLast? c = fun _ => none := by
        funext bs
        rw [runOf, if_neg h0, if_pos h16]
        rfl
      simp only [this]
      exact none_fails z
    · rw [if_neg hn]
      obtain ⟨v, h1, h2, h3⟩ := lenCells_last hn
      rw [h2, ok_bind]
      refine Ok.pure' ?_
      have : runOf acc.getLast? c = fun bs => (takeNum 2 bs).map fun k => ((v, k.1 + 3), k.2) := by
        funext bs
        rw [runOf, if_neg h0, if_pos h16, h1]
        rfl
      simp only [this]
      exact ⟨2, map_reads hk fun k => (v, k + 3), h15 v h3, by omega⟩
  · rw [if_neg h16]
    by_cases h17 : c = 17
    · rw [if_pos h17]
      refine Ok.bind (zreceive_reads hz (show 3 ≤ 25 by norm_num)) ?_
      rintro ⟨k, y⟩ ⟨hk, _⟩
      refine Ok.pure' ?_
      have : runOf acc.getLast? c = fun bs => (takeNum 3 bs).map fun k => ((0, k.1 + 3), k.2) := by
        funext bs
        rw [runOf, if_neg h0, if_neg h16, if_pos h17]
      simp only [this]
      exact ⟨3, map_reads hk fun k => (0, k + 3), by omega, by omega⟩
    · rw [if_neg h17]
      by_cases h18 : c = 18
      · rw [if_pos h18]
        refine Ok.bind (zreceive_reads hz (show 7 ≤ 25 by norm_num)) ?_
        rintro ⟨k, y⟩ ⟨hk, _⟩
        refine Ok.pure' ?_
        have : runOf acc.getLast? c = fun bs => (takeNum 7 bs).map fun k => ((0, k.1 + 11), k.2) := by
          funext bs
          rw [runOf, if_neg h0, if_neg h16, if_neg h17, if_pos h18]
        simp only [this]
        exact ⟨7, map_reads hk fun k => (0, k + 11), by omega, by omega⟩
      · rw [if_neg h18]
        refine Ok.pure' ?_
        have : runOf acc.getLast? c = fun _ => none := by
          funext bs
          rw [runOf, if_neg h0, if_neg h16, if_neg h17, if_neg h18]
        simp only [this]
        exact none_fails z

/-- What one round does. -/
def LenPost (cl : List Nat) (ntot : Nat) (t : LenState) (acc : List Nat) (r : LenState × Bool) : Prop :=
  if r.2 then r.1.ok = false ∧ Fails (fun bs => (readRun cl acc.getLast? bs).bind fun r =>
      if acc.length + r.1.2 ≤ ntot then some (r.1, r.2) else none) t.z
  else ∃ n p, ReadsAs (readRun cl acc.getLast?) t.z r.1.z n p ∧ p.1 ≤ 15 ∧ 0 < p.2 ∧ acc.length + p.2 ≤ ntot ∧ r.1.ok = true ∧
    r.1.n = acc.length + p.2 ∧ r.1.codes = lenCells (acc ++ List.replicate p.2 p.1)

theorem if_shrinks {α : Type} (c : Prop) [Decidable c] (a : α) : Shrinks (fun bs => if c then some (a, bs) else none) := by
  by_cases h : c
  · simp only [if_pos h]; exact pure_shrinks a
  · simp only [if_neg h]; exact none_shrinks

theorem lenStep_ok {cl : List Nat} {h : ZHuff} (ht : Tab cl h) (hcl : cl.length = 19) {ntot : Nat} (hnt : ntot ≤ 320) {t : LenState}
    {acc : List Nat} (hz : WF t.z) (hn : t.n = acc.length) (hlt : acc.length < ntot) (hc : t.codes = lenCells acc) (h15 : ∀ v ∈ acc, v ≤ 15) :
    Ok (lenStep h ntot t) (LenPost cl ntot t acc) := by
  rw [lenStep, if_neg (by omega)]
  refine Ok.bind (decode_reads ht hz) ?_
  rintro ⟨c, z1⟩ h1
  simp only at h1 ⊢
  cases c with
  | none =>
    refine Ok.pure' ?_
    rw [LenPost, if_pos rfl]
    refine ⟨rfl, ?_⟩
    rw [readRun_eq]
    refine Fails.bind (s2 := fun (p : Nat × Nat) bs => if acc.length + p.2 ≤ ntot then some (p, bs) else none) (Fails.bind h1 (runOf_shrinks _)) ?_
    intro a
    exact if_shrinks _ _
  | some c =>
    obtain ⟨h1, hc19⟩ := h1
    rw [hcl] at hc19
    simp only at h1 ⊢
    rw [if_neg (by omega)]
    by_cases h16 : c < 16
    · rw [if_pos h16, hn, hc, lenCells_wr (by omega), ok_bind]
      refine Ok.pure' ?_
      rw [LenPost, if_neg (by simp)]
      refine ⟨cl.getD c 0 + 0, (c, 1), ?_, by simp only; omega, Nat.one_pos, hlt, rfl, rfl, rfl⟩
      rw [readRun_eq]
      refine h1.bind (s2 := runOf acc.getLast?) ?_
      have : runOf acc.getLast? c = fun bs => some ((c, 1), bs) := by
        funext bs
        rw [runOf, if_pos h16]
      rw [this]
      exact pure_reads _ h1.adv.wf
    · rw [if_neg h16, hn, hc]
      refine Ok.bind (repeatOf_ok (by omega) h15 h1.adv.wf) ?_
      rintro ⟨r, z2⟩ h2
      simp only at h2 ⊢
      cases r with
      | none =>
        refine Ok.pure' ?_
        rw [LenPost, if_pos rfl]
        refine ⟨rfl, ?_⟩
        rw [readRun_eq]
        refine Fails.bind (s2 := fun (p : Nat × Nat) bs => if acc.length + p.2 ≤ ntot then some (p, bs) else none)
          (h1.bind_fails h2 (runOf_shrinks _ _)) ?_
        intro a
        exact if_shrinks _ _
      | some p =>
        obtain ⟨n, h2, hp15, hp0⟩ := h2
        have hr : ReadsAs (readRun cl acc.getLast?) t.z z2 (cl.getD c 0 + n) p := by
          rw [readRun_eq]
          exact h1.bind (s2 := runOf acc.getLast?) h2
        obtain ⟨v, k⟩ := p
        simp only at hp15 hp0 ⊢
        by_cases hk : ntot - acc.length < k
        · rw [if_pos hk]
          refine Ok.pure' ?_
          rw [LenPost, if_pos rfl]
          refine ⟨rfl, hr.bind_fails (s2 := fun (p : Nat × Nat) bs => if acc.length + p.2 ≤ ntot then some (p, bs) else none) ?_ (if_shrinks _ _)⟩
          intro bs _ _ a rest h
          simp only at h
          rw [if_neg (by omega)] at h
          cases h
        · rw [if_neg hk, lenCells_fill (by omega), ok_bind]
          refine Ok.pure' ?_
          rw [LenPost, if_neg (by simp)]
          exact ⟨_, (v, k), hr, hp15, hp0, by simp only; omega, rfl, rfl, rfl⟩

theorem readRun_shrinks (cl : List Nat) (last : Option Nat) : Shrinks (readRun cl last) := by
  rw [readRun_eq]
  exact Shrinks.bind (readCode_shrinks cl) (runOf_shrinks last)

theorem readLens_shrinks (cl : List Nat) (total : Nat) : ∀ (f : Nat) (acc : List Nat), Shrinks (fun bs => readLens cl total f bs acc)
  | 0, acc => none_shrinks
  | f + 1, acc => by
    simp only [readLens]
    by_cases h : total ≤ acc.length
    · simp only [if_pos h]
      exact pure_shrinks acc
    · simp only [if_neg h]
      refine Shrinks.bind (s2 := fun (p : Nat × Nat) bs => if acc.length + p.2 ≤ total then readLens cl total f bs (acc ++ List.replicate p.2 p.1) else none)
        (readRun_shrinks cl _) ?_
      intro p
      by_cases hp : acc.length + p.2 ≤ total
      · simp only [if_pos hp]
        exact readLens_shrinks cl total f _
      · simp only [if_neg hp]
        exact none_shrinks

/-- All lengths. -/
theorem lens_ok {cl : List Nat} {h : ZHuff} (ht : Tab cl h) (hcl : cl.length = 19) {ntot : Nat} (hnt : ntot ≤ 320) {z : ZBuf} (hz : WF z) :
    Ok (whileFuel 322 ⟨0, List.replicate 455 none, z, true⟩ (lenStep h ntot)) (fun t =>
      if t.ok = true ∧ t.n = ntot then ∃ n lens, ReadsAs (fun bs => readLens cl ntot (ntot + 1) bs []) z t.z n lens ∧ t.codes = lenCells lens ∧
        lens.length = ntot ∧ ∀ v ∈ lens, v ≤ 15
      else Fails (fun bs => readLens cl ntot (ntot + 1) bs []) z) := by
  refine whileFuel_ok (fun t => ∃ n acc k, t.ok = true ∧ t.n = acc.length ∧ acc.length ≤ ntot ∧ t.codes = lenCells acc ∧ (∀ v ∈ acc, v ≤ 15) ∧
      k ≤ acc.length ∧ Adv n z t.z ∧
      (∀ bs, num bs = z.val → n ≤ bs.length → ∀ f, readLens cl ntot (f + k) bs [] = readLens cl ntot f (bs.drop n) acc) ∧
      (∀ bs, num bs = z.val → ∀ f r, readLens cl ntot f bs [] = some r → n ≤ bs.length ∧ ∃ g, readLens cl ntot g (bs.drop n) acc = some r))
    (fun t => ntot - t.n) _ ⟨0, [], 0, rfl, rfl, Nat.zero_le _, rfl, by simp, le_rfl, Adv.refl hz, fun bs _ _ f => rfl,
      fun bs _ f r h => ⟨Nat.zero_le _, f, h⟩⟩ (by simp only; omega) ?_
  rintro t ⟨n, acc, k, hok, hn, hle, hc, h15, hk, hadv, h1, h2⟩
  have hval : ∀ bs, num bs = z.val → num (bs.drop n) = t.z.val := fun bs hb => by rw [num_drop, hb, hadv.val]
  by_cases hfull : ntot ≤ t.n
  · rw [lenStep, if_pos hfull]
    refine Ok.pure' ?_
    rw [if_pos rfl, if_pos ⟨hok, by simp only; omega⟩]
    refine ⟨n, acc, ⟨hadv, fun bs hb hl => ?_, fun bs p hb hp => (h2 bs hb _ p hp).1⟩, hc, by omega, h15⟩
    rw [show ntot + 1 = (ntot - k + 1) + k by omega, h1 bs hb hl, readLens, if_pos (by omega)]
  · refine (lenStep_ok ht hcl hnt hadv.wf hn (by omega) hc h15).mono ?_
    rintro ⟨t', stop⟩ hp
    rw [LenPost] at hp
    cases stop with
    | true =>
      rw [if_pos rfl] at hp ⊢
      rw [if_neg (by simp only at hp ⊢; rw [hp.1]; simp)]
      intro bs hb hbl r rest hr h32
      obtain ⟨h3, g, h4⟩ := h2 bs hb _ _ hr
      cases g with
      | zero => cases h4
      | succ g =>
        rw [readLens, if_neg (by omega), Option.bind_eq_some_iff] at h4
        obtain ⟨⟨p, rest'⟩, h5, h6⟩ := h4
        simp only at h6
        by_cases hpt : acc.length + p.2 ≤ ntot
        · rw [if_pos hpt] at h6
          have h7 := readLens_shrinks cl ntot g _ _ _ _ h6
          have h8 := readRun_shrinks cl _ _ _ _ h5
          rw [List.length_drop] at h8
          have := (hadv.left (by omega)).1
          refine hp.2 (bs.drop n) (hval bs hb) (by rw [List.length_drop]; omega) p rest' ?_ (by omega)
          simp only
          rw [h5, Option.bind_some]
          simp only
          rw [if_pos hpt]
        · rw [if_neg hpt] at h6
          cases h6
    | false =>
      rw [if_neg (by simp)] at hp ⊢
      obtain ⟨n', p, hr, hp15, hp0, hpt, hok', hn', hc'⟩ := hp
      simp only at hr hok' hn' hc' ⊢
      have hal : (acc ++ List.replicate p.2 p.1).length = acc.length + p.2 := by rw [List.length_append, List.length_replicate]
      refine ⟨⟨n + n', acc ++ List.replicate p.2 p.1, k + 1, hok', by omega, by omega, hc', ?_, by omega, hadv.trans hr.adv, ?_, ?_⟩, by omega⟩
      · intro v hv
        rw [List.mem_append, List.mem_replicate] at hv
        rcases hv with hv | ⟨_, rfl⟩
        · exact h15 v hv
        · exact hp15
      · intro bs hb hl f
        rw [show f + (k + 1) = (f + 1) + k by omega, h1 bs hb (by omega), readLens, if_neg (by omega),
          hr.eq _ (hval bs hb) (by rw [List.length_drop]; omega), Option.bind_some]
        simp only
        rw [if_pos hpt, List.drop_drop]
      · intro bs hb f r hfr
        obtain ⟨h3, g, h4⟩ := h2 bs hb f r hfr
        cases g with
        | zero => cases h4
        | succ g =>
          rw [readLens, if_neg (by omega), Option.bind_eq_some_iff] at h4
          obtain ⟨q, h5, h6⟩ := h4
          have h7 := hr.needs _ q (hval bs hb) h5
          rw [hr.eq _ (hval bs hb) h7] at h5
          cases h5
          simp only at h6
          rw [if_pos hpt, List.drop_drop] at h6
          rw [List.length_drop] at h7
          exact ⟨by omega, g, h6⟩

end FlatCV
