/-
C121-C123: zlib streams are decoded as RFC 1950 and RFC 1951 say.
-/
import Verif.Lemmas.InflateFixed
import Verif.Lemmas.Png

namespace FlatCV.Props

open FlatCV.Model FlatCV.Png

variable {data out : List UInt8} {initial : Nat} {grows : Nat → Bool}

/-- C121: whatever the bytes, whatever the first size of the output and whichever reallocations fail, decoding ends without an access outside
of a buffer, without a read of memory that was not written, and without an overflow. -/
theorem inflate_safe (data : List UInt8) (h0 : 0 < initial) (hi : initial < 4294967296) (grows : Nat → Bool) (parse_header : Bool) :
    ∃ r, zlib_decode data initial grows parse_header = .ok r := by
  cases parse_header with
  | true =>
    obtain ⟨r, h, _⟩ := zlib_ok h0 hi grows (data := data)
    exact ⟨r, h⟩
  | false =>
    obtain ⟨r, h, _⟩ := raw_ok h0 hi grows (data := data)
    exact ⟨r, h⟩

/-- C121: what is returned as the output was written. -/
theorem inflate_initialised (h0 : 0 < initial) (hi : initial < 4294967296) {parse_header : Bool} {z : ZBuf}
    (h : zlib_decode data initial grows parse_header = .ok (true, z)) : ∃ o : List UInt8, z.out.take z.zout = o.map some ∧ z.zout = o.length := by
  have key : ∀ {body : List UInt8} {r : Bool × ZBuf}, StreamPost body initial grows r → r.1 = true → ∃ o : List UInt8, r.2.out.take r.2.zout = o.map some ∧ r.2.zout = o.length := by
    intro body r hr ht
    rw [StreamPost, if_pos ht] at hr
    obtain ⟨o, _, ho, _⟩ := hr
    exact ⟨o, ho⟩
  cases parse_header with
  | true =>
    obtain ⟨r, hr, h1, h2⟩ := zlib_ok h0 hi grows (data := data)
    rw [h] at hr
    cases hr
    by_cases hh : HeaderOk data
    · exact key (h1 hh) rfl
    · cases h2 hh
  | false =>
    obtain ⟨r, hr, h1⟩ := raw_ok h0 hi grows (data := data)
    rw [h] at hr
    cases hr
    exact key h1 rfl

/-- C122: a zlib stream in the sense of RFC 1950 is decoded to its contents, if they fit in the first buffer or the buffer can be enlarged. -/
theorem inflate_complete (h0 : 0 < initial) (hi : initial < 4294967296) (h : zlibDecode data = some out)
    (hm : out.length ≤ initial ∨ ((∀ k, grows k = true) ∧ out.length ≤ 2147483648)) :
    ∃ z, zlib_decode data initial grows true = .ok (true, z) ∧ z.out.take z.zout = out.map some ∧ z.zout = out.length := by
  match data, h with
  | cmf :: flg :: body, h =>
    rw [zlibDecode] at h
    by_cases hh : zlibHeader cmf flg
    · rw [if_pos hh, Option.bind_eq_some_iff] at h
      obtain ⟨⟨rest, o⟩, h1, h2⟩ := h
      simp only at h2
      split_ifs at h2 with hc
      cases h2
      have h32 : 32 ≤ rest.length := by
        have := congrArg List.length hc
        rw [List.length_drop, bitsOf_length, adler32, List.length_append] at this
        simp only [be16, List.length_cons, List.length_nil] at this
        omega
      have hne : body ≠ [] := by
        rintro rfl
        rw [show bitsOf [] = [] from rfl, inflateAll, takeNum, if_neg (by simp)] at h1
        cases h1
      obtain ⟨⟨ok, z⟩, hr, h3, _⟩ := zlib_ok h0 hi grows (data := cmf :: flg :: body)
      have h4 := h3 ⟨cmf, flg, body, rfl, hne, hh.1, hh.2.2.1, hh.2.2.2⟩
      rw [show (cmf :: flg :: body).drop 2 = body from rfl, StreamPost] at h4
      cases ok with
      | false =>
        rw [if_neg (by simp)] at h4
        exact absurd (h4 rest out h1 h32 hm) (by simp)
      | true =>
        rw [if_pos rfl] at h4
        obtain ⟨o, n, h5, h6, h7⟩ := h4
        have h8 : (bitsOf body).length % 8 = 0 := by rw [bitsOf_length]; omega
        have h9 := h6 (bitsOf body) rfl h8 (h7 _ _ rfl h8 h1)
        rw [h1] at h9
        cases h9
        exact ⟨z, hr, h5⟩
    · rw [if_neg hh] at h
      cases h

/-- C123: what is decoded successfully is what RFC 1951 says the bytes after the header mean, if zero bytes are added at the end where the
bytes end too early. -/
theorem inflate_sound (h0 : 0 < initial) (hi : initial < 4294967296) {z : ZBuf} (h : zlib_decode data initial grows true = .ok (true, z)) :
    ∃ cmf flg body k rest o, data = cmf :: flg :: body ∧ cmf.toNat % 16 = 8 ∧ (cmf.toNat * 256 + flg.toNat) % 31 = 0 ∧ flg.toNat.testBit 5 = false ∧
      inflateAll (8 * (body.length + k) + 1) (bitsOf (body ++ List.replicate k 0)) [] = some (rest, o) ∧ z.out.take z.zout = o.map some ∧ z.zout = o.length := by
  obtain ⟨r, hr, h1, h2⟩ := zlib_ok h0 hi grows (data := data)
  rw [h] at hr
  cases hr
  by_cases hh : HeaderOk data
  · have h3 := h1 hh
    obtain ⟨cmf, flg, body, rfl, _, e1, e2, e3⟩ := hh
    rw [show (cmf :: flg :: body).drop 2 = body from rfl, StreamPost, if_pos rfl] at h3
    obtain ⟨o, n, h5, h6, _⟩ := h3
    have hz : ∀ k, num (bitsOf (List.replicate k 0)) = 0 := by
      intro k
      induction k with
      | zero => rfl
      | succ k ih => rw [List.replicate_succ, num_bytes, ih]; rfl
    have h7 := h6 (bitsOf (body ++ List.replicate n 0)) (by rw [bitsOf_append, num_append, hz]; omega) (by rw [bitsOf_length]; omega)
      (by rw [bitsOf_length, List.length_append, List.length_replicate]; omega)
    rw [bitsOf_length, List.length_append, List.length_replicate] at h7
    exact ⟨cmf, flg, body, n, _, o, rfl, e1, e2, e3, h7, h5⟩
  · cases h2 hh

/-- C122: what FlatCV's own compressor writes is decoded to the data it was given. -/
theorem inflate_of_compress {hp : Heap} {src q : Nat} (hsrc : src ∈ hp.live) (hd0 : 0 < data.length) (hd : data.length ≤ 600000000)
    (h : hp.fails hp.next = false) (h1 : hp.fails (hp.next + 1) = false) (hi : initial < 4294967296) (hm : data.length ≤ initial) :
    ∃ (z : List UInt8) (b : Buf UInt8) (g : Heap) (y : ZBuf), stbi_zlib_compress src data q hp = .ok (some b, g) ∧ b.cells = z.map some ∧
      zlib_decode z initial grows true = .ok (true, y) ∧ y.out.take y.zout = data.map some := by
  obtain ⟨z, h2, _, h3⟩ := compress_ok (q := q) hsrc hd0 hd h h1
  obtain ⟨y, h4, h5, _⟩ := inflate_complete (grows := grows) (by omega) hi (zlibRead_decode h2) (Or.inl hm)
  exact ⟨z, _, _, y, h3, rfl, h4, h5⟩

/-- A stream with a block with dynamic codes (made by zlib) meets the hypotheses. -/
example : ∃ z, zlib_decode [120, 218, 29, 198, 73, 1, 0, 0, 16, 64, 192, 172, 163, 127, 136, 61, 60, 32, 42, 151, 157, 55, 94, 29, 12, 239, 249, 13, 84]
      10 (fun _ => true) true = .ok (true, z) ∧ z.out.take z.zout = ([97, 98, 97, 97, 98, 98, 98, 97, 98, 97, 97, 98, 97, 98, 98, 97, 97, 98, 97, 98, 97,
        97, 97, 97, 98, 97, 97, 97, 98, 98, 98, 98, 98, 97, 97] : List UInt8).map some ∧ z.zout = 35 :=
  inflate_complete (by omega) (by omega) (by decide +kernel) (Or.inr ⟨fun _ => rfl, by decide⟩)

/-- C123: the converse of C122 is false: the checksum is not looked at, it may even be missing. -/
theorem inflate_ignores_checksum : zlibDecode [0x78, 0x01, 0x01, 1, 0, 0xfe, 0xff, 7] = none ∧
    ∃ z, zlib_decode [0x78, 0x01, 0x01, 1, 0, 0xfe, 0xff, 7] 1 (fun _ => true) true = .ok (true, z) ∧ z.out.take z.zout = [some 7] := by
  refine ⟨by decide +kernel, ?_⟩
  have h : (zlib_decode [0x78, 0x01, 0x01, 1, 0, 0xfe, 0xff, 7] 1 (fun _ => true) true).map (fun r => (r.1, r.2.zout, r.2.out)) = .ok (true, 1, [some 7]) := by
    decide +kernel
  obtain ⟨⟨ok, z⟩, hr⟩ := inflate_safe (initial := 1) [0x78, 0x01, 0x01, 1, 0, 0xfe, 0xff, 7] (by omega) (by omega) (fun _ => true) true
  rw [hr] at h
  have h' : (ok, z.zout, z.out) = (true, 1, [some (7 : UInt8)]) := Except.ok.inj h
  obtain ⟨rfl, h2⟩ := Prod.mk.inj h'
  obtain ⟨h3, h4⟩ := Prod.mk.inj h2
  exact ⟨z, hr, by rw [h3, h4]; rfl⟩

end FlatCV.Props
