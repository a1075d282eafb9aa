import Verif.Model.Morph
import Verif.Spec.Morph
import Verif.Spec.Call
import Verif.Lemmas.Image
import Verif.Lemmas.Mem
import Mathlib.Tactic.Ring
import Mathlib.Tactic.Linarith

namespace FlatCV
open Model Spec

/-- Preconditions under which the `int32_t` arithmetic of the morphology code is defined. -/
structure MorphOK (P : Plat) (w h r : Nat) (d : List UInt8) : Prop where
  w_pos : 0 < w
  h_pos : 0 < h
  len : d.length = w * h
  size : w * h ≤ P.szMax
  px_i32 : w * h ≤ 2147483648
  r_small : r ≤ 32767
  w_r : w + r ≤ 2147483648
  h_r : h + r ≤ 2147483648

theorem idx32_ok {x y w h : Nat} (hx : x < w) (hy : y < h) (hwh : w * h ≤ 2147483648) :
    idx32 (y : Int) (w : Int) (x : Int) = .ok ((y * w + x : Nat) : Int) := by
  have h1 := idx_lt hx hy
  have e1 : ((y : Int) * (w : Int)) = ((y * w : Nat) : Int) := by push_cast; rfl
  unfold idx32
  rw [e1, i32_ok (by unfold IsI32; omega)]
  simp only [ok_bind]
  rw [i32_ok (by unfold IsI32; omega)]
  push_cast
  rfl

theorem disk_abs {r : Nat} {dx dy : Int} (h : Disk r dx dy) :
    -(r : Int) ≤ dx ∧ dx ≤ r ∧ -(r : Int) ≤ dy ∧ dy ≤ r := by
  unfold Disk at h
  refine ⟨?_, ?_, ?_, ?_⟩ <;> by_contra hc <;> nlinarith [mul_self_nonneg dx, mul_self_nonneg dy]

theorem disk_iff {r : Nat} {dx dy : Int} :
    Disk r dx dy ↔ dx * dx + dy * dy ≤ (r : Int) * r + r := by
  unfold Disk
  have : ((2 * r + 1) * (2 * r + 1) : Int) = 4 * (r * r + r) + 1 := by ring
  rw [this]
  omega

theorem inDisk_ok {r : Nat} {dx dy : Int} (hr : r ≤ 32767) (hx : -(r : Int) ≤ dx ∧ dx ≤ r)
    (hy : -(r : Int) ≤ dy ∧ dy ≤ r) [Decidable (Disk r dx dy)] :
    inDisk (r : Int) dx dy = .ok (decide (Disk r dx dy)) := by
  have a1 : dx * dx ≤ 32767 * 32767 := by nlinarith
  have a2 : dy * dy ≤ 32767 * 32767 := by nlinarith
  have a3 := mul_self_nonneg dx
  have a4 := mul_self_nonneg dy
  unfold inDisk
  rw [i32_ok (by unfold IsI32; omega), i32_ok (by unfold IsI32; omega)]
  simp only [ok_bind]
  rw [i32_ok (by unfold IsI32; omega)]
  simp only [ok_bind]
  congr 1
  exact decide_eq_decide.2 disk_iff.symm

theorem rdInZ_px {w h : Nat} {d : List UInt8} (hd : d.length = w * h) {x y : Nat} (hx : x < w)
    (hy : y < h) : rdInZ d ((y * w + x : Nat) : Int) = .ok (px w 1 d x y 0) := by
  unfold rdInZ
  rw [if_pos (by omega), Int.toNat_natCast]
  have := getElem?_px (w := w) (h := h) (ch := 1) (d := d) (by omega) hx hy (c := 0) (by omega)
  simp only [Nat.mul_one, Nat.add_zero] at this
  exact rdIn_ok this

theorem Marked.wrZ {n : Nat} {v0 v1 : UInt8} {S : Nat → Prop} {s : Cells UInt8} {k : Nat}
    (hs : Marked n v0 v1 S s) (hk : k < n) :
    Ok (wrZ s ((k : Nat) : Int) v1) (Marked n v0 v1 (fun j => S j ∨ j = k)) := by
  unfold FlatCV.wrZ
  rw [if_pos (by omega), Int.toNat_natCast]
  exact hs.wr hk

/-- One painted neighbour. -/
theorem dilateAt_ok {P : Plat} {w h r : Nat} {d : List UInt8} (ok : MorphOK P w h r d) {x y : Nat}
    (hx : x < w) (hy : y < h) {dx dy : Int} (hdx : -(r : Int) ≤ dx ∧ dx ≤ r)
    (hdy : -(r : Int) ≤ dy ∧ dy ≤ r) {T : Nat → Prop} {t : Cells UInt8}
    (ht : Marked (w * h) 0 255 T t) :
    Ok (dilateAt w h x y dx dy t) (Marked (w * h) 0 255 (fun k => T k ∨
      ∃ nx ny : Nat, nx < w ∧ ny < h ∧ (nx : Int) = x + dx ∧ (ny : Int) = y + dy ∧
        k = ny * w + nx)) := by
  have o1 := ok.w_r
  have o2 := ok.h_r
  unfold dilateAt
  rw [i32_ok (z := (y : Int) + dy) (by unfold IsI32; omega),
    i32_ok (z := (x : Int) + dx) (by unfold IsI32; omega)]
  simp only [ok_bind]
  by_cases hin : (y : Int) + dy ≥ 0 ∧ (y : Int) + dy < h ∧ (x : Int) + dx ≥ 0 ∧ (x : Int) + dx < w
  · rw [if_pos hin]
    obtain ⟨ny, hny⟩ : ∃ ny : Nat, (ny : Int) = y + dy := ⟨((y : Int) + dy).toNat, by omega⟩
    obtain ⟨nx, hnx⟩ : ∃ nx : Nat, (nx : Int) = x + dx := ⟨((x : Int) + dx).toNat, by omega⟩
    have hny' : ny < h := by omega
    have hnx' : nx < w := by omega
    rw [← hny, ← hnx, idx32_ok hnx' hny' ok.px_i32]
    simp only [ok_bind]
    refine (ht.wrZ (idx_lt hnx' hny')).mono fun s hs => hs.congr fun k _ => or_congr_right ?_
    constructor
    · rintro rfl; exact ⟨nx, ny, hnx', hny', rfl, rfl, rfl⟩
    · rintro ⟨a, b, _, _, ea, eb, rfl⟩
      have : a = nx := by omega
      have : b = ny := by omega
      subst a b; rfl
  · rw [if_neg hin]
    refine Ok.pure' (ht.congr fun k _ => ⟨Or.inl, ?_⟩)
    rintro (h | ⟨a, b, h1, h2, ea, eb, _⟩)
    · exact h
    · exact absurd ⟨by omega, by omega, by omega, by omega⟩ hin

theorem dilation_returns {P : Plat} {w h r : Nat} {d : List UInt8} (ok : MorphOK P w h r d)
    (hp : Heap) :
    Returns (fcv_binary_dilation_disk P (some d) w h r) hp
      (fun c => c = (binImg w h (Dilate w h r (White w h d))).map some) := by
  classical
  obtain ⟨hw, hh, hd, hsz, h31, hr, hwr, hhr⟩ := ok
  have ok : MorphOK P w h r d := ⟨hw, hh, hd, hsz, h31, hr, hwr, hhr⟩
  have z : ¬ ((w : Int) ≤ 0 ∨ (h : Int) ≤ 0 ∨ (r : Int) < 0) := by omega
  have hg1 : ¬ w > P.szMax / h := P.guard_of_mul_le hh hsz
  have e1 : P.sz (w * h) = w * h := P.sz_eq' hsz
  unfold fcv_binary_dilation_disk
  simp only [z, if_false, Int.toNat_natCast, hg1, e1]
  refine allocFill_returns hp ?_
  have hms := memset_all (List.replicate (w * h) (none : Option UInt8)) 0
  simp only [List.length_replicate] at hms
  rw [hms]
  simp only [ok_bind]
  -- pixel (x, y) contributes the disk around it if it is white
  let Dk : Nat → Nat → Nat → Prop := fun y x k =>
    px w 1 d x y 0 = 255 ∧ ∃ nx ny : Nat, nx < w ∧ ny < h ∧
      Disk r ((nx : Int) - x) ((ny : Int) - y) ∧ k = ny * w + nx
  refine (Marked.loop (fun y k => ∃ x, x < w ∧ Dk y x k) (Marked.start (w * h) (0 : UInt8) 255)
    ?_).mono ?_
  · intro y hy T t ht
    refine Marked.loop (fun x k => Dk y x k) ht ?_
    intro x hx T t ht
    rw [idx32_ok hx hy h31]
    simp only [ok_bind]
    rw [rdInZ_px hd hx hy]
    simp only [ok_bind]
    by_cases hv : px w 1 d x y 0 = 255
    · rw [if_pos hv]
      refine (Marked.loop (fun ky k => ∃ kx, kx < 2 * r + 1 ∧
          Disk r ((kx : Int) - r) ((ky : Int) - r) ∧
          ∃ nx ny : Nat, nx < w ∧ ny < h ∧ (nx : Int) = x + ((kx : Int) - r) ∧
            (ny : Int) = y + ((ky : Int) - r) ∧ k = ny * w + nx) ht ?_).mono ?_
      · intro ky hky T t ht
        refine Marked.loop (fun kx k => Disk r ((kx : Int) - r) ((ky : Int) - r) ∧
          ∃ nx ny : Nat, nx < w ∧ ny < h ∧ (nx : Int) = x + ((kx : Int) - r) ∧
            (ny : Int) = y + ((ky : Int) - r) ∧ k = ny * w + nx) ht ?_
        intro kx hkx T t ht
        try simp only
        rw [inDisk_ok hr (by omega) (by omega)]
        simp only [ok_bind, decide_eq_true_eq]
        by_cases hdk : Disk r ((kx : Int) - r) ((ky : Int) - r)
        · rw [if_pos hdk]
          refine (dilateAt_ok ok hx hy (by omega) (by omega) ht).mono fun s hs =>
            hs.congr fun k _ => or_congr_right ?_
          exact ⟨fun h => ⟨hdk, h⟩, fun h => h.2⟩
        · rw [if_neg hdk]
          refine Ok.pure' (ht.congr fun k _ => ⟨Or.inl, ?_⟩)
          rintro (h | h)
          · exact h
          · exact absurd h.1 hdk
      · intro s hs
        refine hs.congr fun k _ => or_congr_right ?_
        constructor
        · rintro ⟨ky, hky, kx, hkx, hdk, nx, ny, h1, h2, e1, e2, rfl⟩
          refine ⟨hv, nx, ny, h1, h2, ?_, rfl⟩
          have ex : (nx : Int) - x = (kx : Int) - r := by omega
          have ey : (ny : Int) - y = (ky : Int) - r := by omega
          rw [ex, ey]; exact hdk
        · rintro ⟨_, nx, ny, h1, h2, hdk, rfl⟩
          obtain ⟨b1, b2, b3, b4⟩ := disk_abs hdk
          refine ⟨((ny : Int) - y + r).toNat, by omega, ((nx : Int) - x + r).toNat, by omega, ?_,
            nx, ny, h1, h2, by omega, by omega, rfl⟩
          have ex : ((((nx : Int) - x + r).toNat : Nat) : Int) - r = (nx : Int) - x := by omega
          have ey : ((((ny : Int) - y + r).toNat : Nat) : Int) - r = (ny : Int) - y := by omega
          rw [ex, ey]; exact hdk
    · rw [if_neg hv]
      refine Ok.pure' (ht.congr fun k _ => ⟨Or.inl, ?_⟩)
      rintro (h | h)
      · exact h
      · exact absurd h.1 hv
  · intro s hs
    refine hs.done (by simp [binImg]) fun k hk => ?_
    obtain ⟨x, y, c, hx, hy, hc, rfl⟩ := idx3_surj (k := k) (w := w) (h := h) (ch := 1) (by omega)
    have hget := mkImg_getElem? (f := fun x y (_ : Nat) =>
      if Dilate w h r (White w h d) x y then (255 : UInt8) else 0) hx hy hc
    have hiff : (False ∨ ∃ y', y' < h ∧ ∃ x', x' < w ∧ Dk y' x' ((y * w + x) * 1 + c)) ↔
        Dilate w h r (White w h d) x y := by
      have hk0 : (y * w + x) * 1 + c = y * w + x := by omega
      rw [hk0]
      constructor
      · rintro (h | ⟨y', hy', x', hx', hv, nx, ny, h1, h2, hdk, e⟩)
        · exact h.elim
        · have hw0 : 0 < w := by omega
          have e1 : ny = y := by
            have : (y * w + x) / w = (ny * w + nx) / w := by rw [e]
            rw [Nat.add_comm, Nat.add_mul_div_right _ _ hw0, Nat.div_eq_of_lt hx, Nat.zero_add,
              Nat.add_comm, Nat.add_mul_div_right _ _ hw0, Nat.div_eq_of_lt h1, Nat.zero_add] at this
            exact this.symm
          subst e1
          have e2 : nx = x := by omega
          subst e2
          exact ⟨hx, hy, x', y', ⟨hx', hy', hv⟩, hdk⟩
      · rintro ⟨_, _, x', y', ⟨hx', hy', hv⟩, hdk⟩
        exact Or.inr ⟨y', hy', x', hx', hv, x, y, hx, hy, hdk, rfl⟩
    rw [hiff]
    unfold binImg
    rw [hget]
    exact ⟨fun h => by rw [if_pos h], fun h => by rw [if_neg h]⟩

/-- The neighbour value, clamped or black. -/
theorem neighbour_ok {P : Plat} {w h r : Nat} {d : List UInt8} (ok : MorphOK P w h r d) {x y : Nat}
    (hx : x < w) (hy : y < h) {dx dy : Int} (hdx : -(r : Int) ≤ dx ∧ dx ≤ r)
    (hdy : -(r : Int) ≤ dy ∧ dy ≤ r) (rep : Bool) :
    Ok (neighbour d w h x y dx dy rep) (fun v =>
      (∀ nx ny : Nat, nx < w → ny < h → (nx : Int) = x + dx → (ny : Int) = y + dy →
        v = px w 1 d nx ny 0) ∧
      ((∀ nx ny : Nat, nx < w → ny < h → ¬ ((nx : Int) = x + dx ∧ (ny : Int) = y + dy)) →
        if rep then ∃ cx cy : Nat, cx < w ∧ cy < h ∧ v = px w 1 d cx cy 0 ∧
          ((cx : Int) - x) * ((cx : Int) - x) ≤ dx * dx ∧
          ((cy : Int) - y) * ((cy : Int) - y) ≤ dy * dy
        else v = 0)) := by
  have o1 := ok.w_r
  have o2 := ok.h_r
  have o3 := ok.w_pos
  have o4 := ok.h_pos
  unfold neighbour
  rw [i32_ok (z := (y : Int) + dy) (by unfold IsI32; omega),
    i32_ok (z := (x : Int) + dx) (by unfold IsI32; omega)]
  simp only [ok_bind]
  by_cases hout : (y : Int) + dy < 0 ∨ (y : Int) + dy ≥ h ∨ (x : Int) + dx < 0 ∨ (x : Int) + dx ≥ w
  · rw [if_pos hout]
    cases rep with
    | false =>
      simp only [Bool.false_eq_true, if_false]
      refine Ok.pure' ⟨fun nx ny h1 h2 e1 e2 => ?_, fun _ => rfl⟩
      omega
    | true =>
      simp only [if_true]
      obtain ⟨cy, ecy, hcy, hcy2⟩ : ∃ cy : Nat, ((cy : Nat) : Int) =
          (if (y : Int) + dy < 0 then 0 else if (y : Int) + dy ≥ h then (h : Int) - 1
            else (y : Int) + dy) ∧ cy < h ∧ ((cy : Int) - y) * ((cy : Int) - y) ≤ dy * dy := by
        by_cases h1 : (y : Int) + dy < 0
        · refine ⟨0, by simp [h1], o4, ?_⟩
          have : (y : Int) ≤ -dy := by omega
          push_cast
          nlinarith
        · by_cases h2 : (y : Int) + dy ≥ h
          · refine ⟨h - 1, ?_, by omega, ?_⟩
            · rw [if_neg h1, if_pos h2]; omega
            · have e : ((h - 1 : Nat) : Int) - y ≤ dy := by omega
              have e0 : (0 : Int) ≤ ((h - 1 : Nat) : Int) - y := by omega
              nlinarith
          · refine ⟨((y : Int) + dy).toNat, ?_, by omega, ?_⟩
            · rw [if_neg h1, if_neg h2]; omega
            · have e : ((((y : Int) + dy).toNat : Nat) : Int) - y = dy := by omega
              rw [e]
      obtain ⟨cx, ecx, hcx, hcx2⟩ : ∃ cx : Nat, ((cx : Nat) : Int) =
          (if (x : Int) + dx < 0 then 0 else if (x : Int) + dx ≥ w then (w : Int) - 1
            else (x : Int) + dx) ∧ cx < w ∧ ((cx : Int) - x) * ((cx : Int) - x) ≤ dx * dx := by
        by_cases h1 : (x : Int) + dx < 0
        · refine ⟨0, by simp [h1], o3, ?_⟩
          have : (x : Int) ≤ -dx := by omega
          push_cast
          nlinarith
        · by_cases h2 : (x : Int) + dx ≥ w
          · refine ⟨w - 1, ?_, by omega, ?_⟩
            · rw [if_neg h1, if_pos h2]; omega
            · have e : ((w - 1 : Nat) : Int) - x ≤ dx := by omega
              have e0 : (0 : Int) ≤ ((w - 1 : Nat) : Int) - x := by omega
              nlinarith
          · refine ⟨((x : Int) + dx).toNat, ?_, by omega, ?_⟩
            · rw [if_neg h1, if_neg h2]; omega
            · have e : ((((x : Int) + dx).toNat : Nat) : Int) - x = dx := by omega
              rw [e]
      rw [← ecy, ← ecx, idx32_ok hcx hcy ok.px_i32]
      simp only [ok_bind]
      rw [rdInZ_px ok.len hcx hcy]
      refine Ok.pure ⟨fun nx ny h1 h2 e1 e2 => ?_, fun _ => ⟨cx, cy, hcx, hcy, rfl, hcx2, hcy2⟩⟩
      omega
  · rw [if_neg hout]
    obtain ⟨ny, hny⟩ : ∃ ny : Nat, (ny : Int) = y + dy := ⟨((y : Int) + dy).toNat, by omega⟩
    obtain ⟨nx, hnx⟩ : ∃ nx : Nat, (nx : Int) = x + dx := ⟨((x : Int) + dx).toNat, by omega⟩
    have hny' : ny < h := by omega
    have hnx' : nx < w := by omega
    rw [← hny, ← hnx, idx32_ok hnx' hny' ok.px_i32]
    simp only [ok_bind]
    rw [rdInZ_px ok.len hnx' hny']
    refine Ok.pure ⟨fun a b h1 h2 e1 e2 => ?_, fun hno => absurd ⟨rfl, rfl⟩ (hno nx ny hnx' hny')⟩
    have : a = nx := by omega
    have : b = ny := by omega
    subst a b; rfl

/-- What it means that the code finds offset `(dx, dy)` white. -/
def NbWhite (w h : Nat) (d : List UInt8) (x y : Nat) (rep : Bool) (r : Nat) : Prop :=
  if rep then ErodeIn w h r (White w h d) x y else Erode w h r (White w h d) x y

theorem canErode_ok {P : Plat} {w h r : Nat} {d : List UInt8} (ok : MorphOK P w h r d) {x y : Nat}
    (hx : x < w) (hy : y < h) (rep : Bool) :
    Ok (canErode d w h r x y rep) (fun b => b = true ↔ NbWhite w h d x y rep r) := by
  classical
  -- per offset: `G dx dy` = the code reads 255 there
  have hnb : ∀ dx dy : Int, (-(r : Int) ≤ dx ∧ dx ≤ r) → (-(r : Int) ≤ dy ∧ dy ≤ r) →
      ∃ v, neighbour d w h x y dx dy rep = .ok v ∧
      (∀ nx ny : Nat, nx < w → ny < h → (nx : Int) = x + dx → (ny : Int) = y + dy →
        v = px w 1 d nx ny 0) ∧
      ((∀ nx ny : Nat, nx < w → ny < h → ¬ ((nx : Int) = x + dx ∧ (ny : Int) = y + dy)) →
        if rep then ∃ cx cy : Nat, cx < w ∧ cy < h ∧ v = px w 1 d cx cy 0 ∧
          ((cx : Int) - x) * ((cx : Int) - x) ≤ dx * dx ∧
          ((cy : Int) - y) * ((cy : Int) - y) ≤ dy * dy
        else v = 0) := fun dx dy h1 h2 => neighbour_ok ok hx hy h1 h2 rep
  let G : Int → Int → Prop := fun dx dy => neighbour d w h x y dx dy rep = .ok 255
  have hiff : (∀ dx dy, Disk r dx dy → G dx dy) ↔ NbWhite w h d x y rep r := by
    cases rep with
    | false =>
      simp only [NbWhite, Bool.false_eq_true, if_false]
      constructor
      · intro hall
        refine ⟨hx, hy, fun dx dy hdk => ?_⟩
        obtain ⟨b1, b2, b3, b4⟩ := disk_abs hdk
        obtain ⟨v, ev, hin, hout⟩ := hnb dx dy ⟨b1, b2⟩ ⟨b3, b4⟩
        have hg := hall dx dy hdk
        simp only [G] at hg
        rw [ev] at hg
        have ev255 : v = 255 := by injection hg
        by_contra hno
        have : v = 0 := by
          have := hout (fun nx ny h1 h2 h3 => hno ⟨nx, ny, h3.1, h3.2, h1, h2, h1, h2, by
            rw [← hin nx ny h1 h2 h3.1 h3.2, ev255]⟩)
          simpa using this
        rw [ev255] at this
        exact absurd this (by decide)
      · rintro ⟨_, _, hall⟩ dx dy hdk
        obtain ⟨b1, b2, b3, b4⟩ := disk_abs hdk
        obtain ⟨v, ev, hin, hout⟩ := hnb dx dy ⟨b1, b2⟩ ⟨b3, b4⟩
        obtain ⟨x', y', e1, e2, h1, h2, hw⟩ := hall dx dy hdk
        simp only [G]
        rw [ev, hin x' y' h1 h2 e1 e2, hw.2.2]
    | true =>
      simp only [NbWhite, if_true]
      constructor
      · intro hall
        refine ⟨hx, hy, fun x' y' h1 h2 hdk => ⟨h1, h2, ?_⟩⟩
        obtain ⟨b1, b2, b3, b4⟩ := disk_abs hdk
        obtain ⟨v, ev, hin, hout⟩ := hnb _ _ ⟨b1, b2⟩ ⟨b3, b4⟩
        have hg := hall _ _ hdk
        simp only [G] at hg
        rw [ev] at hg
        have ev255 : v = 255 := by injection hg
        rw [← hin x' y' h1 h2 (by omega) (by omega), ev255]
      · rintro ⟨_, _, hall⟩ dx dy hdk
        obtain ⟨b1, b2, b3, b4⟩ := disk_abs hdk
        obtain ⟨v, ev, hin, hout⟩ := hnb dx dy ⟨b1, b2⟩ ⟨b3, b4⟩
        simp only [G]
        rw [ev]
        congr 1
        by_cases hex : ∃ nx ny : Nat, nx < w ∧ ny < h ∧ (nx : Int) = x + dx ∧ (ny : Int) = y + dy
        · obtain ⟨nx, ny, h1, h2, e1, e2⟩ := hex
          rw [hin nx ny h1 h2 e1 e2]
          have := hall nx ny h1 h2 (by
            have ex : (nx : Int) - x = dx := by omega
            have ey : (ny : Int) - y = dy := by omega
            rw [ex, ey]; exact hdk)
          exact this.2.2
        · have := hout (fun nx ny h1 h2 h3 => hex ⟨nx, ny, h1, h2, h3.1, h3.2⟩)
          simp only [if_true] at this
          obtain ⟨cx, cy, h1, h2, e, l1, l2⟩ := this
          rw [e]
          have := hall cx cy h1 h2 (by unfold Disk at hdk ⊢; linarith)
          exact this.2.2
  rw [← hiff] at *
  have step : ∀ kx ky : Nat, kx < 2 * r + 1 → ky < 2 * r + 1 →
      Ok (do
        let dy : Int := ky - (r : Int)
        let dx : Int := kx - (r : Int)
        let inside ← inDisk r dx dy
        if inside then do
          let v ← neighbour d w h x y dx dy rep
          pure (decide (v = 255), decide (v ≠ 255))
        else pure (true, false) : CM (Bool × Bool))
        (fun b => b.2 = !b.1 ∧ (b.1 = true ↔
          (Disk r ((kx : Int) - r) ((ky : Int) - r) → G ((kx : Int) - r) ((ky : Int) - r)))) := by
    intro kx ky h1 h2
    simp only
    rw [inDisk_ok ok.r_small (by omega) (by omega)]
    simp only [ok_bind, decide_eq_true_eq]
    by_cases hdk : Disk r ((kx : Int) - r) ((ky : Int) - r)
    · rw [if_pos hdk]
      obtain ⟨v, ev, _, _⟩ := hnb ((kx : Int) - r) ((ky : Int) - r) (by omega) (by omega)
      rw [ev]
      simp only [ok_bind]
      refine Ok.pure' ⟨by simp, ?_⟩
      simp only [decide_eq_true_eq]
      constructor
      · rintro rfl _; exact ev
      · intro h
        have := h hdk
        simp only [G] at this
        rw [ev] at this
        injection this
    · rw [if_neg hdk]
      exact Ok.pure' ⟨rfl, by simp [hdk]⟩
  have row : ∀ ky : Nat, ky < 2 * r + 1 →
      Ok (forBreak (2 * r + 1) 0 true fun kx (_ : Bool) => (do
        let dy : Int := ky - (r : Int)
        let dx : Int := kx - (r : Int)
        let inside ← inDisk r dx dy
        if inside then do
          let v ← neighbour d w h x y dx dy rep
          pure (decide (v = 255), decide (v ≠ 255))
        else pure (true, false) : CM (Bool × Bool)))
        (fun b => b = true ↔ ∀ kx : Nat, kx < 2 * r + 1 →
          (Disk r ((kx : Int) - r) ((ky : Int) - r) → G ((kx : Int) - r) ((ky : Int) - r))) := by
    intro ky hky
    refine (forBreak_ok
      (fun i (b : Bool) => b = true ∧ ∀ kx : Nat, kx < i →
          (Disk r ((kx : Int) - r) ((ky : Int) - r) → G ((kx : Int) - r) ((ky : Int) - r)))
      (fun b => b = false ∧ ∃ kx : Nat, kx < 2 * r + 1 ∧
          ¬ (Disk r ((kx : Int) - r) ((ky : Int) - r) → G ((kx : Int) - r) ((ky : Int) - r)))
      ⟨rfl, fun kx h => by omega⟩ ?_).mono ?_
    · rintro kx _ hkx b ⟨rfl, hb⟩
      refine (step kx ky (by omega) hky).mono ?_
      rintro ⟨b1, b2⟩ ⟨e, hbi⟩
      simp only at e hbi
      subst e
      cases b1 with
      | true =>
        simp only [Bool.not_true, Bool.false_eq_true, if_false]
        refine ⟨trivial, fun k hk => ?_⟩
        by_cases e : k = kx
        · subst e; exact hbi.1 rfl
        · exact hb k (by omega)
      | false =>
        simp only [Bool.not_false, if_true]
        exact ⟨trivial, kx, by omega, fun hc => by have := hbi.2 hc; cases this⟩
    · rintro b (⟨rfl, kx, hk, hno⟩ | ⟨rfl, hb⟩)
      · simp only [Bool.false_eq_true, false_iff]
        exact fun hall => hno (hall kx hk)
      · simp only [true_iff]
        intro kx hk
        exact hb kx (by omega)
  unfold canErode
  simp only [Int.toNat_natCast]
  refine (forBreak_ok
      (fun i (b : Bool) => b = true ∧ ∀ ky : Nat, ky < i → ∀ kx : Nat, kx < 2 * r + 1 →
          (Disk r ((kx : Int) - r) ((ky : Int) - r) → G ((kx : Int) - r) ((ky : Int) - r)))
      (fun b => b = false ∧ ∃ kx ky : Nat,
          ¬ (Disk r ((kx : Int) - r) ((ky : Int) - r) → G ((kx : Int) - r) ((ky : Int) - r)))
      ⟨rfl, fun kx h => by omega⟩ ?_).mono ?_
  · rintro ky _ hky b ⟨rfl, hb⟩
    refine Ok.bind (row ky (by omega)) ?_
    intro b1 hbi
    refine Ok.pure' ?_
    cases b1 with
    | true =>
      simp only [Bool.not_true, Bool.false_eq_true, if_false]
      refine ⟨trivial, fun k hk => ?_⟩
      by_cases e : k = ky
      · subst e; exact hbi.1 rfl
      · exact hb k (by omega)
    | false =>
      simp only [Bool.not_false, if_true]
      refine ⟨trivial, ?_⟩
      by_contra hno
      have : ∀ kx : Nat, kx < 2 * r + 1 →
          (Disk r ((kx : Int) - r) ((ky : Int) - r) → G ((kx : Int) - r) ((ky : Int) - r)) := by
        intro kx _
        by_contra hc
        exact hno ⟨kx, ky, hc⟩
      exact absurd (hbi.2 this) (by simp)
  · rintro b (⟨rfl, kx, ky, hno⟩ | ⟨rfl, hb⟩)
    · simp only [Bool.false_eq_true, false_iff]
      exact fun hall => hno (hall _ _)
    · simp only [true_iff]
      intro dx dy hdk
      obtain ⟨b1, b2, b3, b4⟩ := disk_abs hdk
      have := hb (dy + r).toNat (by omega) (dx + r).toNat (by omega)
      have ex : (((dx + r).toNat : Nat) : Int) - r = dx := by omega
      have ey : (((dy + r).toNat : Nat) : Int) - r = dy := by omega
      rw [ex, ey] at this
      exact this hdk

theorem erosion_returns {P : Plat} {w h r : Nat} {d : List UInt8} (ok : MorphOK P w h r d)
    (rep : Bool) (hp : Heap) :
    Returns (binary_erosion_disk_internal P (some d) w h r rep) hp
      (fun c => c = (binImg w h (fun x y => NbWhite w h d x y rep r)).map some) := by
  classical
  obtain ⟨hw, hh, hd, hsz, h31, hr, hwr, hhr⟩ := ok
  have ok : MorphOK P w h r d := ⟨hw, hh, hd, hsz, h31, hr, hwr, hhr⟩
  have z : ¬ ((w : Int) ≤ 0 ∨ (h : Int) ≤ 0 ∨ (r : Int) < 0) := by omega
  have hg1 : ¬ w > P.szMax / h := P.guard_of_mul_le hh hsz
  have e1 : P.sz (w * h) = w * h := P.sz_eq' hsz
  unfold binary_erosion_disk_internal
  simp only [z, if_false, Int.toNat_natCast, hg1, e1]
  refine allocFill_returns hp ?_
  have hms := memset_all (List.replicate (w * h) (none : Option UInt8)) 0
  simp only [List.length_replicate] at hms
  rw [hms]
  simp only [ok_bind]
  refine (Marked.loop (fun y k => ∃ x, x < w ∧ NbWhite w h d x y rep r ∧ k = y * w + x)
    (Marked.start (w * h) (0 : UInt8) 255) ?_).mono ?_
  · intro y hy T t ht
    refine Marked.loop (fun x k => NbWhite w h d x y rep r ∧ k = y * w + x) ht ?_
    intro x hx T t ht
    rw [idx32_ok hx hy h31]
    simp only [ok_bind]
    refine Ok.bind (canErode_ok ok hx hy rep) ?_
    intro b hb
    by_cases hn : NbWhite w h d x y rep r
    · rw [if_pos (hb.2 hn)]
      refine (ht.wrZ (idx_lt hx hy)).mono fun s hs => hs.congr fun k _ => or_congr_right ?_
      exact ⟨fun h => ⟨hn, h⟩, fun h => h.2⟩
    · rw [if_neg (fun h => hn (hb.1 h))]
      refine Ok.pure' (ht.congr fun k _ => ⟨Or.inl, ?_⟩)
      rintro (h | h)
      · exact h
      · exact absurd h.1 hn
  · intro s hs
    refine hs.done (by simp [binImg]) fun k hk => ?_
    obtain ⟨x, y, c, hx, hy, hc, rfl⟩ := idx3_surj (k := k) (w := w) (h := h) (ch := 1) (by omega)
    have hget := mkImg_getElem? (f := fun x y (_ : Nat) =>
      if NbWhite w h d x y rep r then (255 : UInt8) else 0) hx hy hc
    have hiff : (False ∨ ∃ y', y' < h ∧ ∃ x', x' < w ∧ NbWhite w h d x' y' rep r ∧
        (y * w + x) * 1 + c = y' * w + x') ↔ NbWhite w h d x y rep r := by
      have hk0 : (y * w + x) * 1 + c = y * w + x := by omega
      rw [hk0]
      constructor
      · rintro (h | ⟨y', hy', x', hx', hn, e⟩)
        · exact h.elim
        · have hw0 : 0 < w := by omega
          have e1 : y' = y := by
            have : (y * w + x) / w = (y' * w + x') / w := by rw [e]
            rw [Nat.add_comm, Nat.add_mul_div_right _ _ hw0, Nat.div_eq_of_lt hx, Nat.zero_add,
              Nat.add_comm, Nat.add_mul_div_right _ _ hw0, Nat.div_eq_of_lt hx', Nat.zero_add] at this
            exact this.symm
          subst e1
          have e2 : x' = x := by omega
          subst e2
          exact hn
      · intro hn
        exact Or.inr ⟨y, hy, x, hx, hn, rfl⟩
    rw [hiff]
    unfold binImg
    rw [hget]
    exact ⟨fun h => by rw [if_pos h], fun h => by rw [if_neg h]⟩

theorem binImg_length (w h : Nat) (S : Nat → Nat → Prop) : (binImg w h S).length = w * h := by
  unfold binImg; simp

theorem white_binImg {w h : Nat} {S : Nat → Nat → Prop} {x y : Nat} :
    White w h (binImg w h S) x y ↔ x < w ∧ y < h ∧ S x y := by
  classical
  unfold White binImg
  constructor
  · rintro ⟨hx, hy, hv⟩
    rw [px_mkImg hx hy (by omega)] at hv
    refine ⟨hx, hy, ?_⟩
    by_contra hn
    rw [if_neg hn] at hv
    exact absurd hv (by decide)
  · rintro ⟨hx, hy, hs⟩
    refine ⟨hx, hy, ?_⟩
    rw [px_mkImg hx hy (by omega), if_pos hs]

theorem binImg_congr {w h : Nat} {S T : Nat → Nat → Prop}
    (hst : ∀ x y, x < w → y < h → (S x y ↔ T x y)) : binImg w h S = binImg w h T := by
  classical
  unfold binImg
  refine mkImg_congr fun x y c hx hy _ => ?_
  by_cases hs : S x y
  · rw [if_pos hs, if_pos ((hst x y hx hy).1 hs)]
  · rw [if_neg hs, if_neg fun ht => hs ((hst x y hx hy).2 ht)]

theorem disk_symm {r : Nat} {a b c e : Int} (h : Disk r (a - b) (c - e)) :
    Disk r (b - a) (e - c) := by
  unfold Disk at *
  have e1 : (b - a) * (b - a) = (a - b) * (a - b) := by ring
  have e2 : (e - c) * (e - c) = (c - e) * (c - e) := by ring
  rw [e1, e2]; exact h

theorem disk_zero (r : Nat) : Disk r 0 0 := by
  unfold Disk
  have : (0 : Int) ≤ (2 * r + 1) * (2 * r + 1) := by positivity
  simpa using this

end FlatCV
