/-
C145: at the end of a progressive JPEG file, the samples are computed from the restored coefficients exactly as those of a baseline file with
the same coefficients.
-/
import Verif.Lemmas.JpegFinish

namespace FlatCV.Props
open Model Jpg

/-- C145: all components; `BlockCells` is what the decoder of baseline files gives for the same coefficients. -/
theorem finish_samples (p : Prog) (c : Nat → JComp) (cf : Nat → Cells Int) (dq : Nat → List Nat) (C : Nat → Nat → Nat → Nat → Int) (H : ∀ n < p.j.imgN, CompCoefs p n (c n) (cf n) (dq n) (C n)) :
    ∃ p', jpeg_finish p = .ok p' ∧ p' = { p with j := { p.j with comps := p'.j.comps } } ∧ ∀ n < p.j.imgN, ∃ d : Cells UInt8, p'.j.comps[n]? = some { c n with data := d } ∧ d.length = (c n).data.length ∧
      ∀ x < ((c n).x + 7) / 8, ∀ y < ((c n).y + 7) / 8, BlockCells d (c n).w2 y x (dq n) ((List.range 64).map (C n x y)) := by
  have key := forN_ok (n := p.j.imgN) (s := p) (body := fun n p => do
      let c ← rdIn p.j.comps n
      forN ((c.y + 7) / 8) p fun y p => forN ((c.x + 7) / 8) p fun x p => finishBlock n x y p)
    (fun N p' => p' = { p with j := { p.j with comps := p'.j.comps } } ∧ (∀ n, N ≤ n → p'.j.comps[n]? = p.j.comps[n]?) ∧
      ∀ n < N, ∃ d : Cells UInt8, p'.j.comps[n]? = some { c n with data := d } ∧ d.length = (c n).data.length ∧
        ∀ x < ((c n).x + 7) / 8, ∀ y < ((c n).y + 7) / 8, BlockCells d (c n).w2 y x (dq n) ((List.range 64).map (C n x y)))
    ⟨rfl, fun _ _ => rfl, fun n hn => absurd hn (by omega)⟩ ?_
  · obtain ⟨p', h1, h2, -, h3⟩ := key
    exact ⟨p', h1, h2, h3⟩
  · rintro N hN p1 ⟨g1, g2, g3⟩
    have h0 := H N hN
    have hc1 : p1.j.comps[N]? = some (c N) := (g2 N le_rfl).trans h0.comp
    have h1 : CompCoefs p1 N (c N) (cf N) (dq N) (C N) :=
      ⟨hc1, by rw [g1]; exact h0.coef, by rw [g1]; exact h0.steps, h0.ldq, h0.width, h0.size, h0.cells, h0.bound⟩
    obtain ⟨p2, r1, d, r2, r3, r4⟩ := finishComp_ok h1
    have hl := (List.getElem?_eq_some_iff.1 hc1).1
    refine ⟨p2, ?_, ?_, ?_, ?_⟩
    · rw [rdIn_ok hc1, ok_bind]
      exact r1
    · rw [r3]
      dsimp only
      rw [g1]
    · intro n hn
      rw [r3]
      show (p1.j.comps.set N _)[n]? = _
      rw [List.getElem?_set_ne (by omega)]
      exact g2 n (by omega)
    · intro n hn
      by_cases e : n = N
      · subst e
        refine ⟨d, ?_, r2, r4⟩
        rw [r3]
        exact List.getElem?_set_self hl
      · obtain ⟨d', w1, w2, w3⟩ := g3 n (by omega)
        refine ⟨d', ?_, w2, w3⟩
        rw [r3]
        show (p1.j.comps.set N _)[n]? = _
        rw [List.getElem?_set_ne (by omega)]
        exact w1

end FlatCV.Props
