/-
Properties of the PNG writer (C117-C119).
-/
import Verif.Lemmas.Png

namespace FlatCV.Props
open Model Png

variable {x y n stride : Nat} {px : List UInt8} {hp : Heap}

/-- No allocation from `hp` on fails. -/
def Plenty (hp : Heap) : Prop := ∀ i, hp.next ≤ i → hp.fails i = false

/-! ### The round trip -/

/-- The file that is written, and its size. -/
theorem png_written (hf : Fits x y n) (hs : stride = 0 ∨ stride = x * n) (hpx : px.length = x * y * n) (hm : Plenty hp) :
    ∃ l, stbi_write_png true x y n px stride hp = .ok ((1, some l), ⟨hp.next + 5, hp.live, hp.fails⟩) ∧ readPng l = some ⟨x, y, n, px⟩ ∧ l.length ≤ 700000000 := by
  obtain ⟨l, h1, h2⟩ := to_mem_ok hf hs hpx (hm _ le_rfl) (hm _ (by omega)) (hm _ (by omega)) (hm _ (by omega)) (hm _ (by omega))
  refine ⟨l, ?_, h1⟩
  rw [stbi_write_png, hm_step h2, writeFile, if_pos rfl, hm_step (use_live (by simp) (asInput_map_some l)), hm_step (free_ok (by simp)), hm_pure]
  simp

/-- C117: the writer is given an image with rows of less than 2^24 bytes and no more than 600 million bytes in all, 1 to 4 channels.
Unless an allocation fails it reports success, and a PNG reader gets from the file the size, the number of channels and every byte of
the image.  Everything allocated has been released. -/
theorem png_round_trip (hf : Fits x y n) (hs : stride = 0 ∨ stride = x * n) (hpx : px.length = x * y * n) (hm : Plenty hp) :
    ∃ l, stbi_write_png true x y n px stride hp = .ok ((1, some l), ⟨hp.next + 5, hp.live, hp.fails⟩) ∧ readPng l = some ⟨x, y, n, px⟩ := by
  obtain ⟨l, h1, h2, _⟩ := png_written hf hs hpx hm
  exact ⟨l, h1, h2⟩

/-- C117: two images that lead to the same file are the same image. -/
theorem png_injective {x' y' n' stride' : Nat} {px' : List UInt8} {hp' : Heap} (hf : Fits x y n) (hs : stride = 0 ∨ stride = x * n)
    (hpx : px.length = x * y * n) (hm : Plenty hp) (hf' : Fits x' y' n') (hs' : stride' = 0 ∨ stride' = x' * n')
    (hpx' : px'.length = x' * y' * n') (hm' : Plenty hp') {l : List UInt8} {g g' : Heap}
    (e : stbi_write_png true x y n px stride hp = .ok ((1, some l), g)) (e' : stbi_write_png true x' y' n' px' stride' hp' = .ok ((1, some l), g')) :
    x = x' ∧ y = y' ∧ n = n' ∧ px = px' := by
  obtain ⟨m, h1, h2⟩ := png_round_trip hf hs hpx hm
  obtain ⟨m', h1', h2'⟩ := png_round_trip hf' hs' hpx' hm'
  rw [e] at h1
  rw [e'] at h1'
  simp only [Except.ok.injEq, Prod.mk.injEq, Option.some.injEq, true_and] at h1 h1'
  obtain ⟨rfl, -⟩ := h1
  obtain ⟨rfl, -⟩ := h1'
  rw [h2] at h2'
  simpa using h2'

/-- A file that cannot be opened: the writer returns 0, and everything it allocated has been released. -/
theorem png_not_writable (hf : Fits x y n) (hs : stride = 0 ∨ stride = x * n) (hpx : px.length = x * y * n) (hm : Plenty hp) :
    stbi_write_png false x y n px stride hp = .ok ((0, none), ⟨hp.next + 5, hp.live, hp.fails⟩) := by
  obtain ⟨l, -, h2⟩ := to_mem_ok hf hs hpx (hm _ le_rfl) (hm _ (by omega)) (hm _ (by omega)) (hm _ (by omega)) (hm _ (by omega))
  rw [stbi_write_png, hm_step h2, writeFile, if_neg (by simp), hm_step (free_ok (by simp)), hm_pure]
  simp

/-- A 2×2 RGBA image meets the hypotheses. -/
example : ∃ l, stbi_write_png true 2 2 4 [1, 2, 3, 255, 4, 5, 6, 255, 7, 8, 9, 255, 200, 100, 50, 0] 8 ⟨7, [3], fun _ => false⟩ =
      .ok ((1, some l), ⟨12, [3], fun _ => false⟩) ∧
    readPng l = some ⟨2, 2, 4, [1, 2, 3, 255, 4, 5, 6, 255, 7, 8, 9, 255, 200, 100, 50, 0]⟩ :=
  png_round_trip ⟨by decide, by decide, by decide, by decide, by decide, by decide⟩ (Or.inr rfl) rfl fun _ _ => rfl

/-! ### Overflow -/

/-- C118: the bound 2^24 on the bytes of a row is sharp.  Whenever a row has at least 2^24 bytes and all bytes are 128, the writer computes a
sum that does not fit an `int`, whatever the number of rows. -/
theorem png_long_rows_overflow (hy : 0 < y) (hn : 0 < n) (hw : 16777216 ≤ x * n) (hs : stride = 0 ∨ stride = x * n) (hm : Plenty hp) {opens : Bool} :
    stbi_write_png opens x y n (List.replicate (x * y * n) 128) stride hp = .error (.comp .signedOverflow) := by
  rw [stbi_write_png, hm_fail (to_mem_overflow hy hn hw hs rfl (hm _ le_rfl) (hm _ (by omega)))]

/-- C118: a grey image of 4194304 × 1 pixels with 4 channels, 16 MiB of data. -/
theorem png_overflow_example : stbi_write_png true 4194304 1 4 (List.replicate (4194304 * 1 * 4) 128) (4194304 * 4) ⟨0, [], fun _ => false⟩ =
    .error (.comp .signedOverflow) :=
  png_long_rows_overflow (by omega) (by omega) (by omega) (Or.inr rfl) fun _ _ => rfl

/-- C118: one pixel less in each row, and every image is written correctly. -/
theorem png_long_rows_fit {x n : Nat} (hx : 0 < x) (hn : 0 < n) (hn4 : n ≤ 4) (hw : x * n < 16777216) {px : List UInt8} (hpx : px.length = x * 1 * n)
    (hm : Plenty hp) : ∃ l, stbi_write_png true x 1 n px 0 hp = .ok ((1, some l), ⟨hp.next + 5, hp.live, hp.fails⟩) ∧
      readPng l = some ⟨x, 1, n, px⟩ :=
  png_round_trip ⟨hx, by omega, hn, hn4, hw, by omega⟩ (Or.inl rfl) hpx hm

/-! ### Failing allocations -/

/-- C119: if one of the first three allocations fails, the writer returns 0 and what it had allocated before has been released. -/
theorem png_early_failure (hf : Fits x y n) (hs : stride = 0 ∨ stride = x * n) (hpx : px.length = x * y * n) {opens : Bool}
    (h : hp.fails hp.next = true ∨ hp.fails (hp.next + 1) = true ∨ hp.fails (hp.next + 2) = true) :
    ∃ k, stbi_write_png opens x y n px stride hp = .ok ((0, none), ⟨k, hp.live, hp.fails⟩) := by
  rw [stbi_write_png]
  cases h0 : hp.fails hp.next
  · cases h1 : hp.fails (hp.next + 1)
    · cases h2 : hp.fails (hp.next + 2)
      · simp [h0, h1, h2] at h
      · exact ⟨_, by rw [hm_step (to_mem_hash hf hs hpx h0 h1 h2), writeFile, hm_pure]⟩
    · exact ⟨_, by rw [hm_step (to_mem_1 hf hs h0 h1), writeFile, hm_pure]⟩
  · exact ⟨_, by rw [hm_step (to_mem_0 hf hs h0), writeFile, hm_pure]⟩

/-- C119: if the fourth allocation fails, the process is ended by an assertion. -/
theorem png_fourth_failure (hf : Fits x y n) (hs : stride = 0 ∨ stride = x * n) (hpx : px.length = x * y * n) {opens : Bool}
    (h0 : hp.fails hp.next = false) (h1 : hp.fails (hp.next + 1) = false) (h2 : hp.fails (hp.next + 2) = false) (h3 : hp.fails (hp.next + 3) = true) :
    stbi_write_png opens x y n px stride hp = .error (.comp .exit) := by
  rw [stbi_write_png, hm_fail (to_mem_exit hf hs hpx h0 h1 h2 h3)]

/-- C119: if the last allocation fails, the writer returns 0 but the block with the compressed data is never released. -/
theorem png_last_failure_leaks (hf : Fits x y n) (hs : stride = 0 ∨ stride = x * n) (hpx : px.length = x * y * n) {opens : Bool}
    (h0 : hp.fails hp.next = false) (h1 : hp.fails (hp.next + 1) = false) (h2 : hp.fails (hp.next + 2) = false) (h3 : hp.fails (hp.next + 3) = false)
    (h4 : hp.fails (hp.next + 4) = true) :
    stbi_write_png opens x y n px stride hp = .ok ((0, none), ⟨hp.next + 5, (hp.next + 3) :: hp.live, hp.fails⟩) := by
  rw [stbi_write_png, hm_step (to_mem_leak hf hs hpx h0 h1 h2 h3 h4), writeFile, hm_pure]

/-- C119: it is not true that every return of 0 leaves nothing allocated. -/
theorem png_failure_may_leak : ∃ hp g, stbi_write_png true 1 1 1 [0] 1 hp = .ok ((0, none), g) ∧ ¬ g.live.Perm hp.live :=
  ⟨⟨0, [], fun i => i == 4⟩, _, png_last_failure_leaks ⟨by decide, by decide, by decide, by decide, by decide, by decide⟩ (Or.inr rfl) rfl rfl rfl rfl rfl rfl,
    by simp⟩

end FlatCV.Props
