/-
Files that the reader in `Spec/Png.lean` accepts are PNG files in the sense of `Spec/PngDecode.lean`.
-/
import Verif.Lemmas.PngMeaning

namespace FlatCV
open Model Png

theorem bytes_be32 (a b c d : UInt8) : [a, b, c, d] = be32 (a.toNat * 16777216 + b.toNat * 65536 + c.toNat * 256 + d.toNat) := by
  have h1 := a.toNat_lt
  have h2 := b.toNat_lt
  have h3 := c.toNat_lt
  have h4 := d.toNat_lt
  have k : ∀ (x : UInt8) (n : Nat), n % 256 = x.toNat → x = UInt8.ofNat n := by
    intro x n h
    apply UInt8.toNat_inj.mp
    rw [UInt8.toNat_ofNat']
    exact h.symm
  rw [be32]
  rw [← k a _ (by omega), ← k b _ (by omega), ← k c _ (by omega), ← k d _ (by omega)]

theorem readBe32_eq {l rest : List UInt8} {n : Nat} (h : readBe32 l = some (n, rest)) : l = be32 n ++ rest ∧ n < 4294967296 := by
  match l, h with
  | a :: b :: c :: d :: l, h =>
    rw [readBe32] at h
    obtain ⟨rfl, rfl⟩ := Prod.mk.inj (Option.some.inj h)
    rw [← bytes_be32]
    have h1 := a.toNat_lt
    have h2 := b.toNat_lt
    have h3 := c.toNat_lt
    have h4 := d.toNat_lt
    exact ⟨rfl, by omega⟩

theorem readChunk_eq {l ty data rest : List UInt8} (h : readChunk l = some (ty, data, rest)) : l = pngChunk ty data ++ rest ∧ ty.length = 4 := by
  rw [readChunk] at h
  split at h
  · cases h
  · rename_i n l' h1
    obtain ⟨rfl, _⟩ := readBe32_eq h1
    split_ifs at h with h2
    split at h
    · cases h
    · rename_i crc rest' h3
      obtain ⟨h4, _⟩ := readBe32_eq h3
      split_ifs at h with h5
      obtain ⟨rfl, h6⟩ := Prod.mk.inj (Option.some.inj h)
      obtain ⟨rfl, rfl⟩ := Prod.mk.inj h6
      have e : l'.take 4 ++ (l'.take (4 + n)).drop 4 = l'.take (4 + n) := by
        have := List.take_append_drop 4 (l'.take (4 + n))
        rwa [List.take_take, show min 4 (4 + n) = 4 by omega] at this
      have hlen : ((l'.take (4 + n)).drop 4).length = n := by
        rw [List.length_drop, List.length_take]
        omega
      refine ⟨?_, by rw [List.length_take]; omega⟩
      rw [pngChunk, e, hlen, ← h5, List.append_assoc (be32 n), e, List.append_assoc, List.append_assoc, ← h4, List.take_append_drop]

theorem chunks_cons (c : List UInt8 × List UInt8) (l : List (List UInt8 × List UInt8)) : chunks (c :: l) = pngChunk c.1 c.2 ++ chunks l := by
  rw [chunks, List.flatMap_cons, chunks]

theorem readData_eq {f : Nat} {l z : List UInt8} (h : readData f l = some z) :
    ∃ ds : List (List UInt8), z = ds.flatten ∧ l = chunks (ds.map fun a => (tag "IDAT", a)) ++ pngChunk (tag "IEND") [] := by
  induction f generalizing l z with
  | zero => cases h
  | succ f ih =>
    rw [readData] at h
    split at h
    · cases h
    · rename_i ty data rest h1
      obtain ⟨rfl, _⟩ := readChunk_eq h1
      split_ifs at h with h2 h3 h4
      · obtain ⟨rfl, rfl⟩ := h3
        subst h2
        obtain rfl := Option.some.inj h
        exact ⟨[], rfl, by rw [List.map_nil, chunks, List.flatMap_nil, List.nil_append, List.append_nil]⟩
      · split at h
        · cases h
        · rename_i more h5
          obtain ⟨ds, rfl, rfl⟩ := ih h5
          obtain rfl := Option.some.inj h
          refine ⟨data :: ds, by rw [List.flatten_cons], ?_⟩
          subst h4
          rw [List.map_cons, chunks_cons, List.append_assoc]

theorem unfilterRow_length {bpp ty : Nat} {prior : List UInt8} (l : List UInt8) {done row : List UInt8} (h : unfilterRow bpp ty prior done l = some row) :
    row.length = done.length + l.length := by
  induction l generalizing done with
  | nil =>
    rw [unfilterRow] at h
    obtain rfl := Option.some.inj h
    rfl
  | cons v l ih =>
    rw [unfilterRow] at h
    split at h
    · cases h
    · have := ih h
      rw [List.length_append] at this
      simp only [List.length_cons, List.length_nil] at this ⊢
      omega

theorem unfilter_rows {bpp rb h : Nat} {prior l data : List UInt8} (e : unfilter bpp rb h prior l = some data) :
    ∃ rows, unfilterRows bpp rb h prior l = some (rows, []) ∧ data = rows.flatten ∧ rows.length = h ∧ ∀ r ∈ rows, r.length = rb := by
  induction h generalizing prior l data with
  | zero =>
    rw [unfilter] at e
    split_ifs at e with h0
    obtain rfl := Option.some.inj e
    exact ⟨[], by rw [unfilterRows, h0], rfl, rfl, by simp⟩
  | succ h ih =>
    match l, e with
    | t :: l, e =>
      rw [unfilter] at e
      split_ifs at e with h0
      split at e
      · cases e
      · rename_i row h1
        split at e
        · cases e
        · rename_i more h2
          obtain rfl := Option.some.inj e
          obtain ⟨rows, q1, rfl, q3, q4⟩ := ih h2
          refine ⟨row :: rows, ?_, by rw [List.flatten_cons], by rw [List.length_cons, q3], ?_⟩
          · rw [unfilterRows, if_pos h0, h1, Option.bind_some, q1]
            rfl
          · intro r hr
            rcases List.mem_cons.mp hr with rfl | hr
            · have := unfilterRow_length _ h1
              rw [List.length_take, List.length_nil] at this
              omega
            · exact q4 r hr

theorem flatten_getD {rb : Nat} (rows : List (List UInt8)) (h : ∀ r ∈ rows, r.length = rb) {j i : Nat} (hi : i < rb) : rows.flatten.getD (j * rb + i) 0 = (rows.getD j []).getD i 0 := by
  induction rows generalizing j with
  | nil => rfl
  | cons r rows ih =>
    have hr := h r (by simp)
    rw [List.flatten_cons]
    cases j with
    | zero => rw [Nat.zero_mul, Nat.zero_add, getD_left (by omega), List.getD_cons_zero]
    | succ j =>
      rw [List.getD_cons_succ, ← ih (fun r hr => h r (by simp [hr])), List.getD_eq_getElem?_getD, List.getElem?_append_right (by rw [hr, Nat.succ_mul]; omega), List.getD_eq_getElem?_getD]
      congr 2
      rw [hr, Nat.succ_mul]
      omega

theorem sample8 (row : List UInt8) (i : Nat) : sampleAt 8 row i = (row.getD i 0).toNat := by
  rw [sampleAt, if_neg (by omega), Nat.mul_div_cancel _ (by omega), Nat.mul_mod_left]
  have := (row.getD i 0).toNat_lt
  norm_num

theorem channels_colour {c ch : Nat} (h : channelsOf c = some ch) : (c = 0 ∧ ch = 1) ∨ (c = 2 ∧ ch = 3) ∨ (c = 4 ∧ ch = 2) ∨ (c = 6 ∧ ch = 4) := by
  unfold channelsOf at h
  split at h
  all_goals cases h
  all_goals omega

theorem readPng_isPng {l : List UInt8} {img : Image} (h : readPng l = some img) (hl : l.length < 1073741824) (hw : img.w < 2147483648) (hh : img.h < 2147483648) :
    ∃ p s, IsPng l p s ∧ p.hd.w = img.w ∧ p.hd.h = img.h ∧ p.channels = img.ch ∧ p.image s = rgbaBytes (imagePixel img) (img.w * img.h) ∧
      (∀ a ∈ p.idat, a.length < 1073741824) ∧ p.idat.flatten.length < 1073741824 ∧ ∀ raw, zlibDecode p.idat.flatten = some raw → raw.length = img.h * (img.w * img.ch + 1) := by
  rw [readPng] at h
  split_ifs at h with h1
  split at h
  · cases h
  · rename_i ty hdr rest h2
    obtain ⟨e2, _⟩ := readChunk_eq h2
    split_ifs at h with h3
    split at h
    · cases h
    · rename_i w hdr1 h4
      obtain ⟨rfl, _⟩ := readBe32_eq h4
      split at h
      · rename_i hh' depth colour compression filter interlace h5
        obtain ⟨rfl, _⟩ := readBe32_eq h5
        split_ifs at h with h6
        obtain ⟨rfl, rfl, rfl, rfl, w0, h0⟩ := h6
        rw [Option.bind_eq_some_iff] at h
        obtain ⟨ch, c1, h⟩ := h
        rw [Option.bind_eq_some_iff] at h
        obtain ⟨z, z1, h⟩ := h
        rw [Option.bind_eq_some_iff] at h
        obtain ⟨raw, r1, h⟩ := h
        rw [Option.map_eq_some_iff] at h
        obtain ⟨data, d1, rfl⟩ := h
        obtain ⟨ds, rfl, rfl⟩ := readData_eq z1
        obtain ⟨rows, u1, rfl, u3, u4⟩ := unfilter_rows d1
        have hw : w < 2147483648 := hw
        have hh : hh' < 2147483648 := hh
        have hcc := channels_colour c1
        let hd : Header := ⟨w, hh', 8, colour.toNat, 0⟩
        let p : Parts := ⟨hd, [], none, [], none, [], ds, []⟩
        have hlen : p.bytes.length = l.length ∧ l = p.bytes := by
          have e : l = p.bytes := by
            have := List.take_append_drop 8 l
            rw [h1, e2, h3] at this
            rw [← this, Parts.bytes]
            simp only [chunks, optChunk, p, hd, Header.bytes, List.flatMap_nil, Option.elim_none, List.append_nil, List.append_assoc, UInt8.ofNat_toNat]
            rfl
          exact ⟨by rw [e], e⟩
        obtain ⟨hlen, hb⟩ := hlen
        have hsz : ds.flatten.length < 1073741824 := by
          have k : ∀ ds : List (List UInt8), ds.flatten.length ≤ (chunks (ds.map fun a => (tag "IDAT", a))).length := by
            intro ds
            induction ds with
            | nil => exact Nat.zero_le _
            | cons a ds ih =>
              rw [List.map_cons, chunks_cons, List.length_append, List.flatten_cons, List.length_append, pngChunk, List.length_append, List.length_append]
              show a.length + _ ≤ _ + a.length + _ + _
              omega
          have := k ds
          rw [Parts.bytes] at hlen
          simp only [List.length_append] at hlen
          have e : p.idat = ds := rfl
          rw [e] at hlen
          omega
        have hmem : ∀ a ∈ ds, a.length < 1073741824 := by
          intro a ha
          have : a.length ≤ ds.flatten.length := (List.sublist_flatten_of_mem ha).length_le
          omega
        have hs : hd.samples = ch := by
          rw [Header.samples]
          have hc : hd.colour = colour.toNat := rfl
          rcases hcc with ⟨a, b⟩ | ⟨a, b⟩ | ⟨a, b⟩ | ⟨a, b⟩ <;> simp only [hc, a, b]
        have hch : 1 ≤ ch := by omega
        have hv : hd.Valid := ⟨w0, h0, hw, hh, by
          show 8 ∈ depthsOf colour.toNat
          rcases hcc with ⟨a, b⟩ | ⟨a, b⟩ | ⟨a, b⟩ | ⟨a, b⟩ <;> rw [a] <;> decide, Nat.zero_le _⟩
        have hrow : (w * hd.samples * hd.depth + 7) / 8 = w * ch := by
          rw [hs]
          show (w * ch * 8 + 7) / 8 = _
          omega
        have hbpp : max 1 (hd.samples * hd.depth / 8) = ch := by
          rw [hs]
          show max 1 (ch * 8 / 8) = ch
          omega
        have hread : readSamples hd raw = some fun x y c => sampleAt 8 (rows.getD y []) (x * ch + c) := by
          rw [readSamples, if_pos rfl, readPass]
          simp only [hrow, hbpp]
          have u1' : unfilterRows ch (w * ch) hd.h (List.replicate (w * ch) 0) raw = some (rows, []) := u1
          rw [show hd.w = w from rfl, hrow, u1', hs]
          rfl
        have hz := zlibRead_decode r1
        have h3' : colour.toNat ≠ 3 := by omega
        refine ⟨p, _, ⟨hb, ⟨hv, by simp [p], by simp [p], by simp [p], by simp [p], ⟨fun l e => (by cases e), fun e => absurd e h3'⟩, fun l e => (by cases e), fun a ha => ?_⟩, ⟨raw, hz, hread⟩, fun e => absurd e h3'⟩,
          rfl, rfl, ?_, ?_, hmem, hsz, ?_⟩
        · have := hmem a ha
          omega
        · rw [Parts.channels]
          show (if colour.toNat = 3 then 3 else hd.samples) + 0 = ch
          rw [if_neg h3', hs, Nat.add_zero]
        · rw [Parts.image]
          show rgbaBytes _ (w * hh') = rgbaBytes _ (w * hh')
          rw [rgbaBytes, rgbaBytes]
          apply List.flatMap_congr
          intro i hi
          have hi : i < w * hh' := List.mem_range.mp hi
          have hval : ∀ c, c < ch → sampleAt 8 (rows.getD (i / w) []) (i % w * ch + c) = (rows.flatten.getD (i * ch + c) 0).toNat := by
            intro c hc
            have hb : i % w * ch + c < w * ch := by
              have h1 : i % w < w := Nat.mod_lt _ w0
              have h2 : (i % w + 1) * ch ≤ w * ch := Nat.mul_le_mul_right _ h1
              rw [Nat.add_mul] at h2
              omega
            rw [sample8, ← flatten_getD rows u4 hb]
            congr 2
            rw [← Nat.mul_assoc, ← Nat.add_assoc, ← Nat.add_mul, Nat.mul_comm (i / w), Nat.div_add_mod]
          have t8 : ∀ v, to8 8 v = v := fun v => by
            rw [to8, if_neg (by omega)]
            norm_num
          have e : p.rgba (fun c => sampleAt 8 (rows.getD (i / w) []) (i % w * ch + c)) = imagePixel ⟨w, hh', ch, rows.flatten⟩ i := by
            rw [Parts.rgba, imagePixel]
            rcases hcc with ⟨a, b⟩ | ⟨a, b⟩ | ⟨a, b⟩ | ⟨a, b⟩
            · rw [show p.hd.colour = 0 from a]
              simp only [show p.hd.depth = 8 from rfl, t8, hval 0 (by omega)]
              subst b
              rfl
            · rw [show p.hd.colour = 2 from a]
              simp only [show p.hd.depth = 8 from rfl, t8, hval 0 (by omega), hval 1 (by omega), hval 2 (by omega)]
              subst b
              rfl
            · rw [show p.hd.colour = 4 from a]
              simp only [show p.hd.depth = 8 from rfl, t8, hval 0 (by omega), hval 1 (by omega)]
              subst b
              rfl
            · rw [show p.hd.colour = 6 from a]
              simp only [show p.hd.depth = 8 from rfl, t8, hval 0 (by omega), hval 1 (by omega), hval 2 (by omega), hval 3 (by omega)]
              subst b
              rfl
          simp only [show p.hd.w = w from rfl, e]
        · intro raw' hraw'
          have : some raw = some raw' := hz.symm.trans hraw'
          obtain rfl := Option.some.inj this
          obtain ⟨k1, k2, _⟩ := unfilterRows_length u1
          have := congrArg List.length k1
          rw [List.length_nil, List.length_drop] at this
          show raw.length = hh' * (w * ch + 1)
          omega
      · cases h

end FlatCV
