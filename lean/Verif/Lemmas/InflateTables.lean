/-
The tables of a compressed block.
-/
import Verif.Lemmas.InflateDyn

namespace FlatCV

open FlatCV.Model FlatCV.Png

/-- The two codes were read as the specification says. -/
def TabPost (spec : List Bool → Option ((List Nat × List Nat) × List Bool)) (z : ZBuf) (r : Option (ZHuff × ZHuff) × ZBuf) : Prop :=
  match r.1 with
  | some (zl, zd) => ∃ n lit dist, ReadsAs spec z r.2 n (lit, dist) ∧ Tab lit zl ∧ Tab dist zd
  | none => Fails spec z

theorem TabPost.bind {α : Type} {s1 : List Bool → Option (α × List Bool)} {s2 : α → List Bool → Option ((List Nat × List Nat) × List Bool)}
    {z z1 : ZBuf} {n : Nat} {a : α} (h1 : ReadsAs s1 z z1 n a) (hs : Shrinks (s2 a)) {r : Option (ZHuff × ZHuff) × ZBuf}
    (h2 : TabPost (s2 a) z1 r) : TabPost (fun bs => (s1 bs).bind fun r => s2 r.1 r.2) z r := by
  obtain ⟨o, y⟩ := r
  cases o with
  | none => exact h1.bind_fails h2 hs
  | some p =>
    obtain ⟨m, lit, dist, h3, h4, h5⟩ := h2
    exact ⟨n + m, lit, dist, h1.bind h3, h4, h5⟩

def codes5 (a : Nat) (lens : List Nat) (bs : List Bool) : Option ((List Nat × List Nat) × List Bool) :=
  if Feasible (lens.take (a + 257)) ∧ Feasible (lens.drop (a + 257)) then some ((lens.take (a + 257), lens.drop (a + 257)), bs) else none

def codes4 (a b : Nat) (nums : List Nat) (bs : List Bool) : Option ((List Nat × List Nat) × List Bool) :=
  if Feasible (clOf nums) then
    (readLens (clOf nums) (a + 257 + (b + 1)) (a + 257 + (b + 1) + 1) bs []).bind fun r => codes5 a r.1 r.2
  else none

def codes3 (a b c : Nat) (bs : List Bool) : Option ((List Nat × List Nat) × List Bool) :=
  (readNums 3 (c + 4) bs).bind fun r => codes4 a b r.1 r.2

def codes2 (a b : Nat) (bs : List Bool) : Option ((List Nat × List Nat) × List Bool) := (takeNum 4 bs).bind fun r => codes3 a b r.1 r.2

def codes1 (a : Nat) (bs : List Bool) : Option ((List Nat × List Nat) × List Bool) := (takeNum 5 bs).bind fun r => codes2 a r.1 r.2

theorem readCodes_eq : readCodes = fun bs => (takeNum 5 bs).bind fun r => codes1 r.1 r.2 := rfl

theorem codes5_shrinks (a : Nat) (lens : List Nat) : Shrinks (codes5 a lens) := if_shrinks _ _

theorem codes4_shrinks (a b : Nat) (nums : List Nat) : Shrinks (codes4 a b nums) := by
  unfold codes4
  split_ifs
  · exact Shrinks.bind (readLens_shrinks _ _ _ _) (codes5_shrinks a)
  · exact none_shrinks

theorem readNums_shrinks : ∀ n, Shrinks (readNums 3 n)
  | 0 => pure_shrinks []
  | n + 1 => by
    intro bs a rest h
    have h1 := readNums_needs (n + 1) bs _ h
    rw [readNums_eq _ _ h1] at h
    cases h
    rw [List.length_drop]
    omega

theorem codes3_shrinks (a b c : Nat) : Shrinks (codes3 a b c) := Shrinks.bind (readNums_shrinks _) (codes4_shrinks a b)

theorem codes2_shrinks (a b : Nat) : Shrinks (codes2 a b) := Shrinks.bind (takeNum_shrinks 4) (codes3_shrinks a b)

theorem codes1_shrinks (a : Nat) : Shrinks (codes1 a) := Shrinks.bind (takeNum_shrinks 5) (codes2_shrinks a)

theorem readCodes_shrinks : Shrinks readCodes := by
  rw [readCodes_eq]
  exact Shrinks.bind (takeNum_shrinks 5) codes1_shrinks

theorem getD_le {l : List Nat} {b : Nat} (h : ∀ v ∈ l, v ≤ b) (i : Nat) : l.getD i 0 ≤ b := by
  rw [List.getD_eq_getElem?_getD]
  cases hi : l[i]? with
  | none => exact Nat.zero_le _
  | some v => exact h v (List.mem_of_getElem? hi)

theorem lenCells_get {acc : List Nat} {i : Nat} (h : i < acc.length) : (lenCells acc)[i]? = some (some (acc.getD i 0)) := by
  rw [lenCells, List.getElem?_append_left (by simpa using h)]
  exact Holds.map acc i h

theorem codes_tab_ok {zl zd : ZHuff} (hl : Shape zl) (hd : Shape zd) {z : ZBuf} (hz : WF z) :
    Ok (compute_huffman_codes zl zd z) (TabPost readCodes z) := by
  rw [compute_huffman_codes, readCodes_eq]
  refine Ok.bind (zreceive_reads hz (show 5 ≤ 25 by norm_num)) ?_
  rintro ⟨a, z1⟩ ⟨h1, ha⟩
  simp only at h1 ha ⊢
  refine Ok.bind (zreceive_reads h1.adv.wf (show 5 ≤ 25 by norm_num)) ?_
  rintro ⟨b, z2⟩ ⟨h2, hb⟩
  simp only at h2 hb ⊢
  refine Ok.bind (zreceive_reads h2.adv.wf (show 4 ≤ 25 by norm_num)) ?_
  rintro ⟨c, z3⟩ ⟨h3, hc⟩
  simp only at h3 hc ⊢
  refine Ok.bind (clSizes_ok (show c + 4 ≤ 19 by omega) h3.adv.wf) ?_
  rintro ⟨sizes, z4⟩ ⟨hs, h4⟩
  simp only at hs h4 ⊢
  subst hs
  refine Ok.mono (P := TabPost (codes4 a b (numsOf z3.val (c + 4))) z4) ?_ fun r hr =>
    TabPost.bind (s2 := codes1) h1 (codes1_shrinks a) (TabPost.bind (s2 := codes2 a) h2 (codes2_shrinks a b)
      (TabPost.bind (s2 := codes3 a b) h3 (codes3_shrinks a b c) (TabPost.bind (s2 := codes4 a b) h4 (codes4_shrinks a b _) hr)))
  have hcl19 : (clOf (numsOf z3.val (c + 4))).length = 19 := by rw [clOf, List.length_map, List.length_range]
  refine Ok.bind (zbuild_ok Shape.fresh (Holds.map _) hcl19.symm (by omega) (clOf_le _ _)) ?_
  intro o ho
  cases o with
  | none =>
    refine Ok.pure' ?_
    intro bs _ _ p rest hp
    rw [codes4, if_neg ho] at hp
    cases hp
  | some h =>
    simp only at ho ⊢
    have hfe : Feasible (clOf (numsOf z3.val (c + 4))) := ho.feasible
    have hc4 : codes4 a b (numsOf z3.val (c + 4)) = fun bs =>
        (readLens (clOf (numsOf z3.val (c + 4))) (a + 257 + (b + 1)) (a + 257 + (b + 1) + 1) bs []).bind fun r => codes5 a r.1 r.2 := by
      funext bs
      rw [codes4, if_pos hfe]
    rw [hc4]
    refine Ok.bind (lens_ok ho hcl19 (show a + 257 + (b + 1) ≤ 320 by omega) h4.adv.wf) ?_
    intro t ht
    by_cases hok : t.ok = true ∧ t.n = a + 257 + (b + 1)
    · rw [if_pos hok] at ht ⊢
      obtain ⟨n, lens, hr, hcells, hlen, h15⟩ := ht
      refine Ok.mono (P := TabPost (codes5 a lens) t.z) ?_ fun r hr' => TabPost.bind (s2 := codes5 a) hr (codes5_shrinks a _) hr'
      have hlit : Holds t.codes (lens.take (a + 257)) := by
        intro i hi
        rw [List.length_take] at hi
        rw [hcells, lenCells_get (by omega), List.getD_eq_getElem?_getD, List.getD_eq_getElem?_getD, List.getElem?_take, if_pos (by omega)]
      have hdist : Holds (t.codes.drop (a + 257)) (lens.drop (a + 257)) := by
        intro i hi
        rw [List.length_drop] at hi
        rw [hcells, List.getElem?_drop, lenCells_get (by omega), List.getD_eq_getElem?_getD, List.getD_eq_getElem?_getD, List.getElem?_drop]
      refine Ok.bind (zbuild_ok hl hlit (by rw [List.length_take]; omega) (by rw [List.length_take]; omega)
        (getD_le fun v hv => h15 v (List.mem_of_mem_take hv))) ?_
      intro o1 ho1
      cases o1 with
      | none =>
        refine Ok.pure' ?_
        intro bs _ _ p rest hp
        rw [codes5, if_neg fun h => ho1 h.1] at hp
        cases hp
      | some zl' =>
        simp only at ho1 ⊢
        refine Ok.bind (zbuild_ok hd hdist (by rw [List.length_drop]; omega) (by rw [List.length_drop]; omega)
          (getD_le fun v hv => h15 v (List.mem_of_mem_drop hv))) ?_
        intro o2 ho2
        cases o2 with
        | none =>
          refine Ok.pure' ?_
          intro bs _ _ p rest hp
          rw [codes5, if_neg fun h => ho2 h.2] at hp
          cases hp
        | some zd' =>
          refine Ok.pure' ⟨0, _, _, ?_, ho1, ho2⟩
          have : codes5 a lens = fun bs => some ((lens.take (a + 257), lens.drop (a + 257)), bs) := by
            funext bs
            rw [codes5, if_pos ⟨ho1.feasible, ho2.feasible⟩]
          rw [this]
          exact pure_reads _ hr.adv.wf
    · rw [if_neg hok] at ht ⊢
      refine Ok.pure' ?_
      exact Fails.bind (s2 := codes5 a) ht (codes5_shrinks a)

/-! ### The fixed codes -/

theorem fixedLit_eq : zdefault_length = fixedLit := by decide +kernel

theorem fixedDist_eq : zdefault_distance = fixedDist := rfl

theorem fixedLit_feasible : Feasible fixedLit := by decide +kernel

theorem fixedDist_feasible : Feasible fixedDist := by decide +kernel

theorem fixedLit_le : ∀ v ∈ fixedLit, v ≤ 15 := by decide +kernel

theorem fixedDist_le : ∀ v ∈ fixedDist, v ≤ 15 := by decide +kernel

/-- The codes of a block of type 1 or 2. -/
def tablesSpec (type : Nat) (bs : List Bool) : Option ((List Nat × List Nat) × List Bool) :=
  if type = 1 then some ((fixedLit, fixedDist), bs) else readCodes bs

theorem tables_ok {type : Nat} {s : ZState} (hl : Shape s.zl) (hd : Shape s.zd) (hz : WF s.z) :
    Ok (blockTables type s) (TabPost (tablesSpec type) s.z) := by
  rw [blockTables]
  by_cases h : type = 1
  · rw [if_pos h]
    have hsp : tablesSpec type = fun bs => some ((fixedLit, fixedDist), bs) := by
      funext bs
      rw [tablesSpec, if_pos h]
    have hlen : fixedLit.length = 288 := by rw [fixedLit, List.length_map, List.length_range]
    have hlen2 : fixedDist.length = 32 := by rw [fixedDist, List.length_replicate]
    rw [hsp, fixedLit_eq, fixedDist_eq]
    refine Ok.bind (zbuild_ok hl (Holds.map fixedLit) hlen.symm (by omega) (getD_le fixedLit_le)) ?_
    intro o1 ho1
    cases o1 with
    | none => exact absurd fixedLit_feasible ho1
    | some zl' =>
      simp only at ho1 ⊢
      refine Ok.bind (zbuild_ok hd (Holds.map fixedDist) hlen2.symm (by omega) (getD_le fixedDist_le)) ?_
      intro o2 ho2
      cases o2 with
      | none => exact absurd fixedDist_feasible ho2
      | some zd' => exact Ok.pure' ⟨0, _, _, pure_reads _ hz, ho1, ho2⟩
  · rw [if_neg h]
    have hsp : tablesSpec type = readCodes := by
      funext bs
      rw [tablesSpec, if_neg h]
    rw [hsp]
    exact codes_tab_ok hl hd hz

end FlatCV
