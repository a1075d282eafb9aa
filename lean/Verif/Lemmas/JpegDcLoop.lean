/-
The loops over the blocks in scans of the first coefficients.
-/
import Verif.Lemmas.JpegDcScan

namespace FlatCV
open Model Jpg Props

variable {m : UInt8} {tail : List UInt8}

theorem nodup_key {α β : Type} {f : α → List β} (key : β → α) : ∀ {l : List α}, l.Nodup → (∀ x ∈ l, (f x).Nodup) → (∀ x ∈ l, ∀ a ∈ f x, key a = x) → (l.flatMap f).Nodup := by
  intro l
  induction l with
  | nil => intro _ _ _; simp
  | cons x l ih =>
    intro hl h hk
    rw [List.nodup_cons] at hl
    rw [List.flatMap_cons, List.nodup_append]
    refine ⟨h x (by simp), ih hl.2 (fun x' hx' => h x' (List.mem_cons_of_mem _ hx')) (fun x' hx' => hk x' (List.mem_cons_of_mem _ hx')), ?_⟩
    rintro a ha b hb rfl
    obtain ⟨x', hx', hb'⟩ := List.mem_flatMap.1 hb
    have e1 := hk x (by simp) a ha
    have e2 := hk x' (List.mem_cons_of_mem _ hx') a hb'
    rw [e1] at e2
    subst e2
    exact hl.1 hx'

theorem interleaved_mem {comps : List Nat} {h v : Nat → Nat} {mx my a x y : Nat} (hm : (a, x, y) ∈ interleaved comps h v mx my) : a ∈ comps ∧ x < mx * h a ∧ y < my * v a := by
  unfold interleaved at hm
  simp only [List.mem_flatMap, List.mem_map, List.mem_range, Prod.mk.injEq] at hm
  obtain ⟨j, hj, i, hi, n, hn, y', hy', x', hx', rfl, rfl, rfl⟩ := hm
  refine ⟨hn, ?_, ?_⟩
  · have := Nat.mul_le_mul_right (h n) (show i + 1 ≤ mx from hi)
    rw [Nat.add_mul, Nat.one_mul] at this
    omega
  · have := Nat.mul_le_mul_right (v n) (show j + 1 ≤ my from hj)
    rw [Nat.add_mul, Nat.one_mul] at this
    omega

theorem interleaved_nodup {comps : List Nat} (hc : comps.Nodup) (h v : Nat → Nat) (mx my : Nat) : (interleaved comps h v mx my).Nodup := by
  unfold interleaved
  refine nodup_key (fun a => a.2.2 / v a.1) List.nodup_range (fun j _ => ?_) ?_
  · refine nodup_key (fun a => a.2.1 / h a.1) List.nodup_range (fun i _ => ?_) ?_
    · refine nodup_key (fun a => a.1) hc (fun n _ => ?_) ?_
      · refine nodup_key (fun a => a.2.2 - j * v n) List.nodup_range (fun y _ => ?_) ?_
        · refine (List.nodup_map_iff ?_).2 List.nodup_range
          intro x x' e
          simp only [Prod.mk.injEq] at e
          omega
        · intro y _ a ha
          obtain ⟨x, _, rfl⟩ := List.mem_map.1 ha
          dsimp only
          omega
      · intro n _ a ha
        simp only [List.mem_flatMap, List.mem_map, List.mem_range] at ha
        obtain ⟨y, _, x, _, rfl⟩ := ha
        rfl
    · intro i _ a ha
      simp only [List.mem_flatMap, List.mem_map, List.mem_range] at ha
      obtain ⟨n, _, y, _, x, hx, rfl⟩ := ha
      dsimp only
      rw [Nat.add_comm, Nat.add_mul_div_right _ _ (by omega), Nat.div_eq_of_lt hx, Nat.zero_add]
  · intro j _ a ha
    simp only [List.mem_flatMap, List.mem_map, List.mem_range] at ha
    obtain ⟨i, _, n, _, y, hy, x, _, rfl⟩ := ha
    dsimp only
    rw [Nat.add_comm, Nat.add_mul_div_right _ _ (by omega), Nat.div_eq_of_lt hy, Nat.zero_add]

theorem rowByRow_mem {n bw bh a x y : Nat} : (a, x, y) ∈ rowByRow n bw bh ↔ a = n ∧ x < bw ∧ y < bh := by
  unfold rowByRow
  simp only [List.mem_flatMap, List.mem_map, List.mem_range, Prod.mk.injEq]
  constructor
  · rintro ⟨y', hy, x', hx, rfl, rfl, rfl⟩
    exact ⟨rfl, hx, hy⟩
  · rintro ⟨rfl, hx, hy⟩
    exact ⟨y, hy, x, hx, rfl, rfl, rfl⟩

theorem rowByRow_nodup (n bw bh : Nat) : (rowByRow n bw bh).Nodup := by
  unfold rowByRow
  refine nodup_key (fun a => a.2.2) List.nodup_range (fun y _ => ?_) ?_
  · refine (List.nodup_map_iff ?_).2 List.nodup_range
    intro x x' e
    simp only [Prod.mk.injEq] at e
    exact e.2.1
  · intro y _ a ha
    obtain ⟨x, _, rfl⟩ := List.mem_map.1 ha
    rfl

section
variable {p0 : Prog} {N : Nat} {c : Nat → JComp} {td : Nat → List ((Nat × Nat) × Nat)} {cf0 : Nat → Cells Int} {C : Nat → Nat → Nat → Int}
    {all : List (Nat × Nat × Nat)} {rest : List Bool}

/-- The blocks of a component in an MCU. -/
theorem progComp_ok (hm : m ≠ 0) (hm' : m ≠ 0xFF) (P : DcPar p0 N c td (fun a => (cf0 a).length) C all) {n : Nat} (hn : n < N) (i jj : Nat) (T : Int) {r : List (Nat × Nat × Nat)} {p : Prog} (hT : p.j.todo = T)
    (hp : DcSt m tail p0 N c td cf0 C all rest (((List.range (c n).v).flatMap fun y => (List.range (c n).h).map fun x => (n, i * (c n).h + x, jj * (c n).v + y)) ++ r) p) :
    Ok (progComp i jj n p) fun st => ∃ p', st = some p' ∧ DcSt m tail p0 N c td cf0 C all rest r p' ∧ p'.j.todo = T := by
  obtain ⟨pr, -, hcomps, -⟩ := hp.bits
  unfold progComp
  rw [rdIn_ok (hcomps n hn).1, ok_bind]
  dsimp only
  refine forN_parts (fun l st => ∃ p', st = some p' ∧ DcSt m tail p0 N c td cf0 C all rest l p' ∧ p'.j.todo = T) _ _ _ ?_ r _ ⟨p, rfl, hp, hT⟩
  intro y _ r st hst
  rw [← List.flatMap_singleton' ((List.range (c n).h).map _), List.flatMap_map] at hst
  refine forN_parts (fun l st => ∃ p', st = some p' ∧ DcSt m tail p0 N c td cf0 C all rest l p' ∧ p'.j.todo = T) _ _ _ ?_ r _ hst
  rintro x _ r st ⟨p1, rfl, h1, h2⟩
  obtain ⟨p2, g1, g2, g3⟩ := dc_step hm hm' P h1
  exact ⟨_, g1, p2, rfl, g2, g3.trans h2⟩

/-- After an MCU. -/
theorem progAfter_ok {p : Prog} {l : List (Nat × Nat × Nat)} (h1 : 1 < p.j.todo) (h2 : p.j.todo ≤ 2147483647) (hp : DcSt m tail p0 N c td cf0 C all rest l p) :
    ∃ p', progAfter p = .ok (.more p') ∧ DcSt m tail p0 N c td cf0 C all rest l p' ∧ p'.j.todo = p.j.todo - 1 := by
  refine ⟨{ p with j := { p.j with todo := p.j.todo - 1 } }, ?_, ⟨?_, hp.bits, hp.cells⟩, rfl⟩
  · unfold progAfter afterMCU
    rw [i32_ok (by unfold IsI32; omega), ok_bind]
    dsimp only
    rw [if_neg (by omega)]
    show Except.ok _ = _
    rw [if_neg (by omega)]
  · have hs := hp.same
    have e3 : p.j = { p0.j with e := p.j.e, comps := p.j.comps, todo := p.j.todo } := congrArg Prog.j hs
    have hq : p.q = p0.q := by rw [hs]
    rw [hq]
    conv_lhs => rw [e3]

/-- An MCU. -/
theorem progMCU_ok (hm : m ≠ 0) (hm' : m ≠ 0xFF) (P : DcPar p0 N c td (fun a => (cf0 a).length) C all) {scanN : Nat} {ord : Nat → Nat} (hord : ∀ k < scanN, p0.j.order[k]? = some (ord k) ∧ ord k < N)
    (hpos : 1 ≤ scanN) (hv : ∀ a < N, 1 ≤ (c a).h ∧ 1 ≤ (c a).v) (i jj : Nat) {r : List (Nat × Nat × Nat)} {p : Prog} (h2 : p.j.todo ≤ 2147483647)
    (hlen : ((((List.range scanN).map ord).flatMap fun n => (List.range (c n).v).flatMap fun y => (List.range (c n).h).map fun x => (n, i * (c n).h + x, jj * (c n).v + y)) ++ r).length < p.j.todo)
    (hp : DcSt m tail p0 N c td cf0 C all rest ((((List.range scanN).map ord).flatMap fun n => (List.range (c n).v).flatMap fun y => (List.range (c n).h).map fun x => (n, i * (c n).h + x, jj * (c n).v + y)) ++ r) p) :
    Ok (progMCU scanN i jj p) fun st => ∃ p', st = .more p' ∧ DcSt m tail p0 N c td cf0 C all rest r p' ∧ p'.j.todo ≤ 2147483647 ∧ (r.length : Int) < p'.j.todo := by
  have hone : 1 ≤ (((List.range scanN).map ord).flatMap fun n => (List.range (c n).v).flatMap fun y => (List.range (c n).h).map fun x => (n, i * (c n).h + x, jj * (c n).v + y)).length := by
    rw [Nat.one_le_iff_ne_zero, ne_eq, List.length_eq_zero_iff, List.flatMap_eq_nil_iff]
    intro hall
    have hN := (hord 0 (by omega)).2
    have e := hall (ord 0) (List.mem_map.2 ⟨0, List.mem_range.2 (by omega), rfl⟩)
    rw [List.flatMap_eq_nil_iff] at e
    have e2 := e 0 (List.mem_range.2 (by have := (hv _ hN).2; omega))
    rw [List.map_eq_nil_iff, List.range_eq_nil] at e2
    have := (hv _ hN).1
    omega
  rw [List.length_append] at hlen
  unfold progMCU
  rw [List.flatMap_map] at hp
  have hloop := forN_parts (fun l st => ∃ p', st = some p' ∧ DcSt m tail p0 N c td cf0 C all rest l p' ∧ p'.j.todo = p.j.todo) _ (fun k st => match st with
    | none => pure none
    | some p => do
      let n ← rdIn p.j.order k
      progComp i jj n p) scanN ?_ r (some p) ⟨p, rfl, hp, rfl⟩
  · refine Ok.bind hloop ?_
    rintro _ ⟨p1, rfl, g2, g3⟩
    obtain ⟨p2, w1, w2, w3⟩ := progAfter_ok (by push_cast at hlen; omega) (by omega) g2
    exact ⟨.more p2, w1, p2, rfl, w2, by omega, by push_cast at hlen; omega⟩
  · rintro k hk r st ⟨p1, rfl, g2, g3⟩
    have ho : p1.j.order[k]? = some (ord k) := by rw [g2.same]; exact (hord k hk).1
    dsimp only
    rw [rdIn_ok ho, ok_bind]
    exact progComp_ok hm hm' P (hord k hk).2 i jj p.j.todo g3 g2

end

end FlatCV
