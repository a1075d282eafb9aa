/-
The PNG file as a whole, and the memory of the writer.
-/
import Verif.Lemmas.PngFilter
import Verif.Lemmas.Perspective

namespace FlatCV
open Model Png

/-! ### The file -/

/-- The contents of IHDR. -/
def hdrOf (x y n : Nat) : List UInt8 := stbiw_wp32 x ++ stbiw_wp32 y ++ [8, ([255, 0, 4, 2, 6] : List UInt8).getD n 0, 0, 0, 0]

/-- A chunk. -/
def chunk (type data : List UInt8) : List UInt8 := stbiw_wp32 data.length ++ (type ++ data) ++ stbiw_wp32 (crc32 (type ++ data))

/-- The bytes of the file. -/
def fileOf (x y n : Nat) (z : List UInt8) : List UInt8 :=
  [137, 80, 78, 71, 13, 10, 26, 10] ++ (chunk [73, 72, 68, 82] (hdrOf x y n) ++ (chunk [73, 68, 65, 84] z ++ chunk [73, 69, 78, 68] []))

theorem readChunk_chunk {type data : List UInt8} (rest : List UInt8) (ht : type.length = 4) (hd : data.length < 2 ^ 32) :
    readChunk (chunk type data ++ rest) = some (type, data, rest) := readChunk_ok ht hd

theorem hdrOf_length (x y n : Nat) : (hdrOf x y n).length = 13 := rfl

theorem chunk_length (type data : List UInt8) : (chunk type data).length = 8 + type.length + data.length := by
  simp only [chunk, List.length_append, show ∀ v, (stbiw_wp32 v).length = 4 from fun _ => rfl]
  omega

theorem tag_IHDR : tag "IHDR" = [73, 72, 68, 82] := by decide +kernel
theorem tag_IDAT : tag "IDAT" = [73, 68, 65, 84] := by decide +kernel
theorem tag_IEND : tag "IEND" = [73, 69, 78, 68] := by decide +kernel

theorem readData_ok {z : List UInt8} (hz : z.length < 2 ^ 32) {f : Nat} (hf : 2 ≤ f) :
    readData f (chunk [73, 68, 65, 84] z ++ chunk [73, 69, 78, 68] []) = some z := by
  obtain ⟨g, rfl⟩ : ∃ g, f = g + 2 := ⟨f - 2, by omega⟩
  rw [readData, readChunk_chunk _ rfl hz]
  simp only
  rw [tag_IEND, tag_IDAT, if_neg (by decide), if_pos rfl, readData]
  have : chunk [73, 69, 78, 68] [] = chunk [73, 69, 78, 68] [] ++ [] := by simp
  rw [this, readChunk_chunk _ rfl (by decide)]
  simp [tag_IEND]

theorem readPng_ok {x y n : Nat} {z raw px : List UInt8} (hx : 0 < x) (hy : 0 < y) (hx32 : x < 2 ^ 32) (hy32 : y < 2 ^ 32) (hn : 0 < n) (hn4 : n ≤ 4)
    (hz : z.length < 2 ^ 32) (h1 : zlibRead z = some raw) (h2 : unfilter n (x * n) y (List.replicate (x * n) 0) raw = some px) :
    readPng (fileOf x y n z) = some ⟨x, y, n, px⟩ := by
  have hn' : n = 1 ∨ n = 2 ∨ n = 3 ∨ n = 4 := by omega
  have hc : channelsOf (([255, 0, 4, 2, 6] : List UInt8).getD n 0).toNat = some n := by
    rcases hn' with rfl | rfl | rfl | rfl <;> rfl
  have e1 : readChunk (chunk [73, 72, 68, 82] (hdrOf x y n) ++ (chunk [73, 68, 65, 84] z ++ chunk [73, 69, 78, 68] [])) =
      some ([73, 72, 68, 82], hdrOf x y n, chunk [73, 68, 65, 84] z ++ chunk [73, 69, 78, 68] []) :=
    readChunk_chunk _ rfl (by rw [hdrOf_length]; norm_num)
  have e2 : readData (chunk [73, 68, 65, 84] z ++ chunk [73, 69, 78, 68] []).length (chunk [73, 68, 65, 84] z ++ chunk [73, 69, 78, 68] []) = some z :=
    readData_ok hz (by rw [List.length_append, chunk_length, chunk_length]; simp only [List.length_cons]; omega)
  have e3 : readBe32 (hdrOf x y n) = some (x, stbiw_wp32 y ++ [8, ([255, 0, 4, 2, 6] : List UInt8).getD n 0, 0, 0, 0]) := by
    rw [hdrOf, List.append_assoc, readBe32_wp32 hx32]
  have e4 : readBe32 (stbiw_wp32 y ++ [8, ([255, 0, 4, 2, 6] : List UInt8).getD n 0, 0, 0, 0]) =
      some (y, [8, ([255, 0, 4, 2, 6] : List UInt8).getD n 0, 0, 0, 0]) := readBe32_wp32 hy32 _
  rw [fileOf]
  generalize chunk [73, 72, 68, 82] (hdrOf x y n) ++ (chunk [73, 68, 65, 84] z ++ chunk [73, 69, 78, 68] []) = T at e1
  generalize chunk [73, 68, 65, 84] z ++ chunk [73, 69, 78, 68] [] = R at e1 e2
  generalize ([255, 0, 4, 2, 6] : List UInt8).getD n 0 = c at hc e3 e4
  generalize stbiw_wp32 y ++ [8, c, 0, 0, 0] = H at e3 e4
  generalize hdrOf x y n = H' at e1 e3
  have t1 : ([137, 80, 78, 71, 13, 10, 26, 10] ++ T : List UInt8).take 8 = [137, 80, 78, 71, 13, 10, 26, 10] := rfl
  have t2 : ([137, 80, 78, 71, 13, 10, 26, 10] ++ T : List UInt8).drop 8 = T := rfl
  rw [readPng, if_pos t1, t2, e1]
  simp only
  rw [if_pos tag_IHDR.symm, e3]
  simp only
  rw [e4]
  simp only
  rw [if_pos ⟨trivial, trivial, trivial, trivial, hx, hy⟩, hc, Option.bind_some, e2, Option.bind_some, h1, Option.bind_some, h2, Option.map_some]

/-! ### Memory -/

theorem hm_fail {β γ : Type} {m : HM β} {f : β → HM γ} {hp : Heap} {e : HFault} (h : m hp = .error e) : (m >>= f) hp = .error e := by
  rw [hm_bind, h]

theorem use_live {β : Type} {ids : List Nat} {c : CM β} {a : β} {hp : Heap} (hl : ∀ i ∈ ids, i ∈ hp.live) (h : c = .ok a) :
    use ids c hp = .ok (a, hp) := by
  unfold use
  rw [if_pos hl, h]

theorem malloc_null {β : Type} {n : Nat} {hp : Heap} (h : hp.fails hp.next = true) : malloc β n hp = .ok (none, ⟨hp.next + 1, hp.live, hp.fails⟩) := by
  simp [malloc, h]

theorem malloc_some {β : Type} {n : Nat} {hp : Heap} (h : hp.fails hp.next = false) :
    malloc β n hp = .ok (some ⟨hp.next, List.replicate n none⟩, ⟨hp.next + 1, hp.next :: hp.live, hp.fails⟩) := by
  simp [malloc, h]

theorem free_ok {i : Nat} {hp : Heap} (h : i ∈ hp.live) : free i hp = .ok ((), ⟨hp.next, hp.live.erase i, hp.fails⟩) := by
  simp [free, h]

/-- What the writer has after filtering the rows: the data and the way to read it. -/
theorem filt_ok {x y n : Nat} (hf : Fits x y n) {px : List UInt8} (hp : px.length = x * y * n) :
    ∃ L ln, (forN y (List.replicate (y * (x * n + 1)) none, List.replicate (x * n) none) fun j s => filterLine px (x * n) (x * n) n j s.1 s.2) =
      .ok (L.map some, ln) ∧ L.length = y * (x * n + 1) ∧ unfilter n (x * n) y (List.replicate (x * n) 0) L = some px := by
  have hall := hf.all
  have hnw : n ≤ x * n := Nat.le_mul_of_pos_left n hf.x_pos
  obtain ⟨⟨c, ln⟩, e, L, h1, h2, h3⟩ := filter_all (px := px) (wn := x * n) (n := n) (h := y) hf.n_pos hnw (by rw [hp]; ring) hf.row (by omega)
    (line := List.replicate (x * n) none) (by simp)
  simp only at h1
  subst h1
  exact ⟨L, ln, e, h2, h3⟩

variable {x y n stride : Nat} {px : List UInt8} {hp : Heap}

theorem sizes_ok (hf : Fits x y n) : i32 ((x : Int) * n) = .ok ((x * n : Nat) : Int) ∧
    i32 (((x * n : Nat) : Int) + 1) = .ok ((x * n + 1 : Nat) : Int) ∧
    i32 (((x * n + 1 : Nat) : Int) * y) = .ok ((y * (x * n + 1) : Nat) : Int) := by
  have hall := hf.all
  have hrow := hf.row
  have e1 : ((x : Int) * n) = ((x * n : Nat) : Int) := by push_cast; ring
  have e3 : ((x * n + 1 : Nat) : Int) * y = ((y * (x * n + 1) : Nat) : Int) := by push_cast; ring
  refine ⟨?_, ?_, ?_⟩
  · rw [e1]
    exact i32_ok (by constructor <;> omega)
  · exact i32_ok (by constructor <;> omega)
  · rw [e3]
    exact i32_ok (by constructor <;> omega)

theorem to_mem_eq (hf : Fits x y n) (hs : stride = 0 ∨ stride = x * n) : stbi_write_png_to_mem px stride x y n hp =
    (malloc UInt8 (y * (x * n + 1)) >>= pngFilt px (x * n) (x * n) x y n) hp := by
  obtain ⟨e1, e2, e3⟩ := sizes_ok hf
  have : (if stride = 0 then x * n else stride) = x * n := by
    rcases hs with hs | hs
    · rw [if_pos hs]
    · rw [hs]; split_ifs <;> rfl
  rw [stbi_write_png_to_mem, hm_step (use_live (by simp) e1), hm_step (use_live (by simp) e2), hm_step (use_live (by simp) e3)]
  simp only [Int.toNat_natCast, this]

/-- The first allocation fails. -/
theorem to_mem_0 (hf : Fits x y n) (hs : stride = 0 ∨ stride = x * n) (h0 : hp.fails hp.next = true) :
    stbi_write_png_to_mem px stride x y n hp = .ok (none, ⟨hp.next + 1, hp.live, hp.fails⟩) := by
  rw [to_mem_eq hf hs, hm_step (malloc_null h0), pngFilt, hm_pure]

/-- The second allocation fails. -/
theorem to_mem_1 (hf : Fits x y n) (hs : stride = 0 ∨ stride = x * n) (h0 : hp.fails hp.next = false) (h1 : hp.fails (hp.next + 1) = true) :
    stbi_write_png_to_mem px stride x y n hp = .ok (none, ⟨hp.next + 2, hp.live, hp.fails⟩) := by
  rw [to_mem_eq hf hs, hm_step (malloc_some h0), pngFilt, hm_step (malloc_null h1), pngLines, hm_step (free_ok (by simp)), hm_pure]
  simp

/-- The heap when the rows have been filtered: only the block with them is new. -/
theorem to_mem_2 (hf : Fits x y n) (hs : stride = 0 ∨ stride = x * n) (hpx : px.length = x * y * n) (h0 : hp.fails hp.next = false)
    (h1 : hp.fails (hp.next + 1) = false) : ∃ L : List UInt8, L.length = y * (x * n + 1) ∧
      unfilter n (x * n) y (List.replicate (x * n) 0) L = some px ∧
      stbi_write_png_to_mem px stride x y n hp = ((do
        let zlib ← stbi_zlib_compress hp.next L 8
        free hp.next
        pngOut x y n zlib) : HM _) ⟨hp.next + 2, hp.next :: hp.live, hp.fails⟩ := by
  obtain ⟨L, ln, e, h2, h3⟩ := filt_ok hf hpx
  refine ⟨L, h2, h3, ?_⟩
  rw [to_mem_eq hf hs, hm_step (malloc_some h0), pngFilt, hm_step (malloc_some h1), pngLines, hm_step (use_live (by simp) e),
    hm_step (free_ok (by simp)), hm_step (use_live (by simp) (asInput_map_some L))]
  simp

theorem compress_null {src q : Nat} {data : List UInt8} (h : hp.fails hp.next = true) :
    stbi_zlib_compress src data q hp = .ok (none, ⟨hp.next + 1, hp.live, hp.fails⟩) := by
  rw [stbi_zlib_compress, hm_step (malloc_null h), zlibStart, hm_pure]

theorem compress_exit {src q : Nat} {data : List UInt8} (h : hp.fails hp.next = false) (h1 : hp.fails (hp.next + 1) = true) :
    stbi_zlib_compress src data q hp = .error (.comp .exit) := by
  rw [stbi_zlib_compress, hm_step (malloc_some h), zlibStart, hm_step (malloc_null h1), zlibFinish, hfault]

theorem compress_ok {src q : Nat} {data : List UInt8} (hsrc : src ∈ hp.live) (hd0 : 0 < data.length) (hd : data.length ≤ 600000000)
    (h : hp.fails hp.next = false) (h1 : hp.fails (hp.next + 1) = false) : ∃ z : List UInt8, zlibRead z = some data ∧
      z.length ≤ data.length + data.length / 8 + 14 ∧
      stbi_zlib_compress src data q hp = .ok (some ⟨hp.next + 1, z.map some⟩, ⟨hp.next + 2, (hp.next + 1) :: hp.live, hp.fails⟩) := by
  obtain ⟨z, e, h2, h3⟩ := zlibBytes_ok hd0 hd q
  refine ⟨z, h2, h3, ?_⟩
  rw [stbi_zlib_compress, hm_step (malloc_some h), zlibStart, hm_step (malloc_some h1), zlibFinish, hm_step (use_live (by simp [hsrc]) e),
    hm_step (free_ok (by simp)), hm_pure]
  simp

theorem fileOf_length (x y n : Nat) (z : List UInt8) : (fileOf x y n z).length = 57 + z.length := by
  simp [fileOf, chunk, stbiw_wp32, hdrOf]
  omega

theorem pngOut_null {z : List UInt8} {i : Nat} (hi : i ∈ hp.live) (hz : z.length ≤ 1000000000) (h : hp.fails hp.next = true) :
    pngOut x y n (some ⟨i, z.map some⟩) hp = .ok (none, ⟨hp.next + 1, hp.live, hp.fails⟩) := by
  rw [pngOut, hm_step (use_live (by simpa using hi) (asInput_map_some z)), hm_step (use_live (by simp) (i32_ok (by constructor <;> omega))),
    hm_step (malloc_null h), writeChunks, hm_pure]

theorem pngOut_ok {z : List UInt8} {i : Nat} (hi : i ∈ hp.live) (hi' : i ≠ hp.next) (hz : z.length ≤ 1000000000) (hn : 0 < n) (hn4 : n ≤ 4)
    (h : hp.fails hp.next = false) : pngOut x y n (some ⟨i, z.map some⟩) hp =
      .ok (some ⟨hp.next, (fileOf x y n z).map some⟩, ⟨hp.next + 1, hp.next :: hp.live.erase i, hp.fails⟩) := by
  have hc : rdIn ([255, 0, 4, 2, 6] : List UInt8) n = .ok (([255, 0, 4, 2, 6] : List UInt8).getD n 0) := by
    have hn' : n = 1 ∨ n = 2 ∨ n = 3 ∨ n = 4 := by omega
    rcases hn' with rfl | rfl | rfl | rfl <;> rfl
  rw [pngOut, hm_step (use_live (by simpa using hi) (asInput_map_some z)), hm_step (use_live (by simp) (i32_ok (by constructor <;> omega))),
    hm_step (malloc_some h), writeChunks, hm_step (use_live (by simp) hc)]
  simp only
  rw [hm_step (use_live (by simp) (crc32_ok _)), hm_step (use_live (by simp [hi]) rfl), hm_step (free_ok (by simp [hi])),
    hm_step (use_live (by simp [List.erase_cons, Ne.symm hi']) (crc32_ok _)), hm_step (use_live (by simp [List.erase_cons, Ne.symm hi']) (crc32_ok _))]
  have e : [137, 80, 78, 71, 13, 10, 26, 10] ++ stbiw_wp32 13 ++ ([73, 72, 68, 82] ++ stbiw_wp32 x ++ stbiw_wp32 y ++
      [8, ([255, 0, 4, 2, 6] : List UInt8).getD n 0, 0, 0, 0]) ++ stbiw_wp32 (crc32 ([73, 72, 68, 82] ++ stbiw_wp32 x ++ stbiw_wp32 y ++
      [8, ([255, 0, 4, 2, 6] : List UInt8).getD n 0, 0, 0, 0])) ++ stbiw_wp32 z.length ++ ([73, 68, 65, 84] ++ z) ++
      stbiw_wp32 (crc32 ([73, 68, 65, 84] ++ z)) ++ stbiw_wp32 0 ++ [73, 69, 78, 68] ++ stbiw_wp32 (crc32 [73, 69, 78, 68]) = fileOf x y n z := by
    have h13 : (stbiw_wp32 x ++ (stbiw_wp32 y ++ [8, ([255, 0, 4, 2, 6] : List UInt8).getD n 0, 0, 0, 0])).length = 13 := rfl
    simp only [fileOf, chunk, hdrOf, List.append_assoc, h13, List.length_nil, List.append_nil]
  rw [e, if_pos ?_, hm_pure]
  · simp [List.erase_cons, Ne.symm hi']
  · rw [fileOf_length, List.length_replicate]
    omega

/-! ### Overflow -/

theorem i32_big {v : Int} (h : 2147483647 < v) : i32 v = .error .signedOverflow := i32_err (by unfold IsI32; omega)

/-- The sum over a line of bytes 128 overflows when the line has at least 2^24 of them. -/
theorem estimate_overflow {k : Nat} (hk : 16777216 ≤ k) : estimate k ((List.replicate k (128 : UInt8)).map some) = .error .signedOverflow := by
  have step : ∀ i, i < k → ∀ est : Int, (do
      let v ← rd ((List.replicate k (128 : UInt8)).map some) i
      i32 (est + (if v.toNat < 128 then v.toNat else 256 - v.toNat : Nat))) = i32 (est + 128) := by
    intro i hi est
    rw [rd_map_some, rdIn_ok (v := (128 : UInt8)) (by simp [hi]), ok_bind]
    rfl
  rw [estimate]
  obtain ⟨m, hm⟩ : ∃ m, m = 16777215 := ⟨_, rfl⟩
  have key : ∀ i, i ≤ m → forN i (0 : Int) (fun i est => do
      let v ← rd ((List.replicate k (128 : UInt8)).map some) i
      i32 (est + (if v.toNat < 128 then v.toNat else 256 - v.toNat : Nat))) = .ok (128 * (i : Int)) := by
    intro i
    induction i with
    | zero => intro _; rfl
    | succ i ih =>
      intro hi
      rw [forN_succ, ih (by omega), ok_bind, step i (by omega), i32_ok (by constructor <;> omega)]
      push_cast
      ring_nf
  refine forN_err (by omega) (key m le_rfl) ?_
  rw [step m (by omega), i32_big (by omega)]

theorem encode_plain {px : List UInt8} {wn n : Nat} {line : Cells UInt8} (hn : n ≤ wn) (hp : wn ≤ px.length) (hl : line.length = wn) :
    stbiw_encode_png_line px wn wn 0 n 0 line = .ok ((px.take wn).map some) := by
  rw [encode_line_ok (by omega) hn (by omega) hl (by omega)]
  congr 2
  apply List.ext_getElem
  · simp [hp]
  · intro i h1 h2
    simp only [List.length_map, List.length_range] at h1
    have h3 : i < px.length := by omega
    simp [filtered, prediction, smp, predict, u8OfInt_self, h3]

theorem lines_overflow {x y n : Nat} {px : List UInt8} (hy : 0 < y) (hn : 0 < n) (hw : 16777216 ≤ x * n) (hpx : px = List.replicate (x * y * n) 128)
    {filt line : Cells UInt8} (hl : line.length = x * n) :
    (forN y (filt, line) fun j s => filterLine px (x * n) (x * n) n j s.1 s.2) = .error .signedOverflow := by
  have hx : 0 < x := by
    rcases Nat.eq_zero_or_pos x with rfl | h
    · omega
    · exact h
  have hlen : x * n ≤ px.length := by
    rw [hpx, List.length_replicate, Nat.mul_right_comm]
    exact Nat.le_mul_of_pos_right _ hy
  refine forN_err (i := 0) hy rfl ?_
  rw [filterLine]
  have : (forN 5 ((line, 0, 2147483647) : Cells UInt8 × Nat × Int) fun f (line, best, val) => do
      let line ← stbiw_encode_png_line px (x * n) (x * n) 0 n f line
      let est ← estimate (x * n) line
      pure (if est < val then (line, f, est) else (line, best, val))) = .error .signedOverflow := by
    refine forN_err (i := 0) (by omega) rfl ?_
    simp only
    rw [encode_plain (Nat.le_mul_of_pos_left n hx) hlen hl, ok_bind, hpx, List.take_replicate, Nat.min_eq_left (by simpa [hpx] using hlen),
      estimate_overflow hw]
    rfl
  rw [this]
  rfl

theorem to_mem_overflow {x y n stride : Nat} {px : List UInt8} (hy : 0 < y) (hn : 0 < n) (hw : 16777216 ≤ x * n)
    (hs : stride = 0 ∨ stride = x * n) (hpx : px = List.replicate (x * y * n) 128) {hp : Heap} (h0 : hp.fails hp.next = false)
    (h1 : hp.fails (hp.next + 1) = false) : stbi_write_png_to_mem px stride x y n hp = .error (.comp .signedOverflow) := by
  have : (if stride = 0 then x * n else stride) = x * n := by
    rcases hs with hs | hs
    · rw [if_pos hs]
    · rw [hs]; split_ifs <;> rfl
  have uerr : ∀ {ids : List Nat} {β : Type} {c : CM β} {hp : Heap} {e : Fault}, (∀ i ∈ ids, i ∈ hp.live) → c = .error e → use ids c hp = .error (.comp e) := by
    intro ids β c hp e hl h
    unfold use
    rw [if_pos hl, h]
  rw [stbi_write_png_to_mem]
  by_cases o1 : x * n ≤ 2147483647
  swap
  · exact hm_fail (uerr (by simp) (i32_big (by push_cast at o1 ⊢; zify at o1; omega)))
  have e1 : i32 ((x : Int) * n) = .ok ((x * n : Nat) : Int) := by rw [← Nat.cast_mul, i32_ok (by constructor <;> omega)]
  rw [hm_step (use_live (by simp) e1)]
  by_cases o2 : x * n + 1 ≤ 2147483647
  swap
  · exact hm_fail (uerr (by simp) (i32_big (by omega)))
  have e2 : i32 (((x * n : Nat) : Int) + 1) = .ok ((x * n + 1 : Nat) : Int) := by rw [← Nat.cast_succ, i32_ok (by constructor <;> omega)]
  rw [hm_step (use_live (by simp) e2)]
  have e3' : ((x * n + 1 : Nat) : Int) * y = (((x * n + 1) * y : Nat) : Int) := by push_cast; ring
  rw [e3']
  by_cases o3 : (x * n + 1) * y ≤ 2147483647
  swap
  · exact hm_fail (uerr (by simp) (i32_big (by omega)))
  rw [hm_step (use_live (by simp) (i32_ok (by constructor <;> omega))), hm_step (malloc_some h0), pngFilt, hm_step (malloc_some h1), pngLines]
  simp only [Int.toNat_natCast, this]
  exact hm_fail (uerr (by simp) (lines_overflow hy hn hw hpx (by simp)))

/-! ### The calls -/

theorem erase_second {a b : Nat} {l : List Nat} (h : a ≠ b) : (a :: b :: l).erase b = a :: l := by
  rw [List.erase_cons_tail (by simpa using h), List.erase_cons_head]

theorem free_filt {hp : Heap} : free hp.next ⟨hp.next + 2 + 2, (hp.next + 2 + 1) :: hp.next :: hp.live, hp.fails⟩ =
    .ok ((), ⟨hp.next + 4, (hp.next + 3) :: hp.live, hp.fails⟩) := by
  rw [free_ok (by simp), erase_second (by omega)]

section
variable {x y n stride : Nat} {px : List UInt8} {hp : Heap}

theorem to_mem_hash (hf : Fits x y n) (hs : stride = 0 ∨ stride = x * n) (hpx : px.length = x * y * n) (h0 : hp.fails hp.next = false)
    (h1 : hp.fails (hp.next + 1) = false) (h2 : hp.fails (hp.next + 2) = true) :
    stbi_write_png_to_mem px stride x y n hp = .ok (none, ⟨hp.next + 3, hp.live, hp.fails⟩) := by
  obtain ⟨L, -, -, e⟩ := to_mem_2 hf hs hpx h0 h1
  rw [e, hm_step (compress_null h2), hm_step (free_ok (by simp)), pngOut, hm_pure]
  simp

theorem to_mem_exit (hf : Fits x y n) (hs : stride = 0 ∨ stride = x * n) (hpx : px.length = x * y * n) (h0 : hp.fails hp.next = false)
    (h1 : hp.fails (hp.next + 1) = false) (h2 : hp.fails (hp.next + 2) = false) (h3 : hp.fails (hp.next + 3) = true) :
    stbi_write_png_to_mem px stride x y n hp = .error (.comp .exit) := by
  obtain ⟨L, -, -, e⟩ := to_mem_2 hf hs hpx h0 h1
  rw [e, hm_fail (compress_exit h2 h3)]

theorem to_mem_leak (hf : Fits x y n) (hs : stride = 0 ∨ stride = x * n) (hpx : px.length = x * y * n) (h0 : hp.fails hp.next = false)
    (h1 : hp.fails (hp.next + 1) = false) (h2 : hp.fails (hp.next + 2) = false) (h3 : hp.fails (hp.next + 3) = false)
    (h4 : hp.fails (hp.next + 4) = true) :
    stbi_write_png_to_mem px stride x y n hp = .ok (none, ⟨hp.next + 5, (hp.next + 3) :: hp.live, hp.fails⟩) := by
  obtain ⟨L, l1, l2, e⟩ := to_mem_2 hf hs hpx h0 h1
  have hy := hf.y_pos
  have hall := hf.all
  have hL : 0 < L.length := by rw [l1]; positivity
  obtain ⟨z, -, z2, ez⟩ := compress_ok (hp := ⟨hp.next + 2, hp.next :: hp.live, hp.fails⟩) (src := hp.next) (q := 8) (data := L) (by simp) hL (by omega) h2 h3
  rw [e, hm_step ez, hm_step free_filt, pngOut_null (by simp) (by omega) h4]

theorem to_mem_ok (hf : Fits x y n) (hs : stride = 0 ∨ stride = x * n) (hpx : px.length = x * y * n) (h0 : hp.fails hp.next = false)
    (h1 : hp.fails (hp.next + 1) = false) (h2 : hp.fails (hp.next + 2) = false) (h3 : hp.fails (hp.next + 3) = false)
    (h4 : hp.fails (hp.next + 4) = false) : ∃ l : List UInt8, (readPng l = some ⟨x, y, n, px⟩ ∧ l.length ≤ 700000000) ∧
    stbi_write_png_to_mem px stride x y n hp = .ok (some ⟨hp.next + 4, l.map some⟩, ⟨hp.next + 5, (hp.next + 4) :: hp.live, hp.fails⟩) := by
  obtain ⟨L, l1, l2, e⟩ := to_mem_2 hf hs hpx h0 h1
  have hx := hf.x_pos
  have hy := hf.y_pos
  have hn := hf.n_pos
  have hall := hf.all
  have hrow := hf.row
  have hL : 0 < L.length := by rw [l1]; positivity
  obtain ⟨z, z1, z2, ez⟩ := compress_ok (hp := ⟨hp.next + 2, hp.next :: hp.live, hp.fails⟩) (src := hp.next) (q := 8) (data := L) (by simp) hL (by omega) h2 h3
  have hxn : x ≤ x * n := Nat.le_mul_of_pos_right _ hn
  have hyn : y ≤ y * (x * n + 1) := Nat.le_mul_of_pos_right _ (by omega)
  refine ⟨fileOf x y n z, ⟨readPng_ok hx hy (by omega) (by omega) hn hf.n_le (by omega) z1 l2, by rw [fileOf_length]; omega⟩, ?_⟩
  rw [e, hm_step ez, hm_step free_filt, pngOut_ok (by simp) (by simp) (by omega) hn hf.n_le h4]
  simp

end

end FlatCV
