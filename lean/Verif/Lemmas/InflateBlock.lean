/-
Blocks with Huffman codes.
-/
import Verif.Lemmas.InflateOut
import Verif.Lemmas.InflateRead

namespace FlatCV

open FlatCV.Model FlatCV.Png

/-- `n` bits were read, and something may have been written. -/
structure Go (n : Nat) (z z' : ZBuf) : Prop where
  wf : WF z'
  zin : z'.zin = z.zin
  grows : z'.grows = z.grows
  cap : z.out.length ≤ z'.out.length
  val : z'.val = z.val / 2 ^ n
  mod : (z'.numBits + n) % 8 = z.numBits % 8
  left : 32 + n ≤ z.left → z'.left + n = z.left ∧ z'.hit = z.hit

theorem Adv.go {n : Nat} {z z' : ZBuf} (h : Adv n z z') : Go n z z' :=
  ⟨h.wf, h.same.zin, h.same.grows, by rw [h.same.out], h.val, h.mod, h.left⟩

theorem SameIn.go {z z' : ZBuf} (h : SameIn z z') (hz : WF z) (hc : z.out.length ≤ z'.out.length) : Go 0 z z' :=
  ⟨h.wf hz, h.zin, h.grows, hc, by rw [h.val]; simp, by rw [h.numBits]; simp, fun _ => ⟨h.left, h.hit⟩⟩

theorem Go.refl {z : ZBuf} (hz : WF z) : Go 0 z z := (Adv.refl hz).go

theorem Go.trans {n m : Nat} {x y z : ZBuf} (h1 : Go n x y) (h2 : Go m y z) : Go (n + m) x z := by
  refine ⟨h2.wf, h2.zin.trans h1.zin, h2.grows.trans h1.grows, h1.cap.trans h2.cap, ?_, ?_, ?_⟩
  · rw [h2.val, h1.val, Nat.div_div_eq_div_mul, pow_add]
  · have := h1.mod
    have := h2.mod
    push_cast
    omega
  · intro h
    obtain ⟨h3, h4⟩ := h1.left (by omega)
    obtain ⟨h5, h6⟩ := h2.left (by omega)
    exact ⟨by omega, h6.trans h4⟩

theorem Go.canHold {n m : Nat} {z z' : ZBuf} (h : Go n z z') (hc : CanHold z m) : CanHold z' m := by
  rcases hc with hc | hc
  · exact Or.inl (hc.trans h.cap)
  · exact Or.inr ⟨by rw [h.grows]; exact hc.1, hc.2⟩

theorem Adv.out {n : Nat} {z z' : ZBuf} (h : Adv n z z') {l : List UInt8} (ho : OutIs z l) : OutIs z' l := by
  refine ⟨?_, ?_, ?_, ?_, ?_⟩
  · rw [h.same.out]; exact ho.out
  · rw [h.same.zout]; exact ho.zout
  · rw [h.same.out]; exact ho.le
  · rw [h.same.out]; exact ho.pos
  · rw [h.same.out]; exact ho.lt

/-! ### Base values -/

theorem some_getD {l : List Nat} {i : Nat} (h : l[i]?.isSome) : l[i]? = some (l.getD i 0) := by
  rw [List.getD_eq_getElem?_getD]
  cases hl : l[i]? with
  | none => rw [hl] at h; cases h
  | some v => rfl

theorem length_tables : ∀ i, i < 29 → ∃ b e, zlength_base[i]? = some b ∧ zlength_extra[i]? = some e ∧ lengthCodes[i]? = some (b, e) ∧
    e ≤ 13 ∧ 0 < b := by
  have : ∀ i, i < 29 → (zlength_base[i]?.isSome ∧ zlength_extra[i]?.isSome ∧
      lengthCodes[i]? = some (zlength_base.getD i 0, zlength_extra.getD i 0) ∧ zlength_extra.getD i 0 ≤ 13 ∧ 0 < zlength_base.getD i 0) := by
    decide
  intro i hi
  obtain ⟨h1, h2, h3, h4, h5⟩ := this i hi
  refine ⟨_, _, ?_, ?_, h3, h4, h5⟩
  · exact some_getD h1
  · exact some_getD h2

theorem dist_tables : ∀ i, i < 30 → ∃ b e, zdist_base[i]? = some b ∧ zdist_extra[i]? = some e ∧ distCodes[i]? = some (b, e) ∧
    e ≤ 13 ∧ 0 < b := by
  have : ∀ i, i < 30 → (zdist_base[i]?.isSome ∧ zdist_extra[i]?.isSome ∧
      distCodes[i]? = some (zdist_base.getD i 0, zdist_extra.getD i 0) ∧ zdist_extra.getD i 0 ≤ 13 ∧ 0 < zdist_base.getD i 0) := by
    decide
  intro i hi
  obtain ⟨h1, h2, h3, h4, h5⟩ := this i hi
  refine ⟨_, _, ?_, ?_, h3, h4, h5⟩
  · exact some_getD h1
  · exact some_getD h2

theorem baseExtra_ok {base extra : List Nat} {i b e : Nat} {z : ZBuf} (hz : WF z) (hb : base[i]? = some b) (he : extra[i]? = some e)
    (h13 : e ≤ 13) : Ok (baseExtra base extra i z) (fun r => r.1 = b + z.val % 2 ^ e ∧ Adv e z r.2) := by
  rw [baseExtra, rdIn_ok hb, ok_bind, rdIn_ok he, ok_bind]
  by_cases h0 : e = 0
  · subst h0
    rw [if_neg (by simp)]
    exact Ok.pure' ⟨by simp [Nat.mod_one], Adv.refl hz⟩
  · rw [if_pos h0]
    refine Ok.bind (zreceive_ok hz (show e ≤ 25 by omega)) ?_
    rintro ⟨k, y⟩ ⟨hk, hy⟩
    exact Ok.pure' ⟨by simp only at hk ⊢; rw [hk], hy⟩

/-- The length and the distance of a repetition. -/
def readPair (dist : List Nat) (s : Nat) (bs : List Bool) : Option ((Nat × Nat) × List Bool) :=
  (readLength s bs).bind fun l => (readDistWith dist l.2).map fun d => ((d.1, l.1), d.2)

theorem readLength_some {s : Nat} {bs : List Bool} {r : Nat × List Bool} (h : readLength s bs = some r) :
    ∃ c, lengthCodes[s - 257]? = some c ∧ c.2 ≤ bs.length ∧ r = (c.1 + num bs % 2 ^ c.2, bs.drop c.2) := by
  rw [readLength, Option.bind_eq_some_iff] at h
  obtain ⟨c, hc, h⟩ := h
  rw [Option.map_eq_some_iff] at h
  obtain ⟨⟨v, rest⟩, h1, h2⟩ := h
  obtain ⟨h3, h4, h5⟩ := takeNum_some h1
  exact ⟨c, hc, h3, by rw [← h2, h4, h5]⟩

theorem readDistWith_some {dist : List Nat} (hf : Feasible dist) (h15 : ∀ i, dist.getD i 0 ≤ 15) {bs : List Bool} {r : Nat × List Bool}
    (h : readDistWith dist bs = some r) :
    ∃ d c, Starts dist (rev (num bs) 16) d ∧ distCodes[d]? = some c ∧ dist.getD d 0 + c.2 ≤ bs.length ∧
      r = (c.1 + num bs / 2 ^ dist.getD d 0 % 2 ^ c.2, bs.drop (dist.getD d 0 + c.2)) := by
  rw [readDistWith, Option.bind_eq_some_iff] at h
  obtain ⟨⟨d, bs1⟩, hd, h⟩ := h
  obtain ⟨h1, h2, h3⟩ := readCode_some hf h15 hd
  simp only at h1 h2 h3 h
  rw [Option.bind_eq_some_iff] at h
  obtain ⟨c, hc, h⟩ := h
  rw [Option.map_eq_some_iff] at h
  obtain ⟨⟨v, rest⟩, h4, h5⟩ := h
  obtain ⟨h6, h7, h8⟩ := takeNum_some h4
  refine ⟨d, c, h1, hc, ?_, ?_⟩
  · rw [h3, List.length_drop] at h6
    omega
  · rw [← h5, h7, h8, h3, num_drop, List.drop_drop]

/-- What one round for a repetition does. -/
def MatchPost (dist : List Nat) (s : Nat) (z : ZBuf) (l : List UInt8) (r : Ctl × ZBuf) : Prop :=
  match r.1 with
  | .more => ∃ n d len m, Go n z r.2 ∧ OutIs r.2 m ∧ l.length < m.length ∧ copyBack d len l = some m ∧
      (∀ bs, num bs = z.val → n ≤ bs.length → readPair dist s bs = some ((d, len), bs.drop n)) ∧
      ∀ bs p, num bs = z.val → readPair dist s bs = some p → n ≤ bs.length
  | .done => False
  | .fail => ∀ bs cap, num bs = z.val → bs.length = z.left → CanHold z cap → ∀ d len rest m,
      readPair dist s bs = some ((d, len), rest) → 32 ≤ rest.length → copyBack d len l = some m → m.length ≤ cap → False

theorem copyBack_length {d n : Nat} {l m : List UInt8} (h : copyBack d n l = some m) (hn : 0 < n) :
    0 < d ∧ d ≤ l.length ∧ m.length = l.length + n := by
  cases n with
  | zero => omega
  | succ n =>
    by_cases hd : 0 < d ∧ d ≤ l.length
    · obtain ⟨m', h1, h2, _⟩ := copyBack_snoc hd.1 (n + 1) l hd.2
      rw [h] at h1
      cases h1
      exact ⟨hd.1, hd.2, h2⟩
    · rw [copyBack, if_neg hd] at h
      cases h

theorem matchStep_ok {dist : List Nat} {zd : ZHuff} (ht : Tab dist zd) {s : Nat} {z : ZBuf} {l : List UInt8} (hz : WF z) (ho : OutIs z l)
    (h257 : 257 ≤ s) (h286 : s < 286) : Ok (matchStep zd s z) (MatchPost dist s z l) := by
  have hf := ht.feasible
  have h15 := ht.le15
  obtain ⟨lb, le, hlb, hle, hlc, hl13, hl0⟩ := length_tables (s - 257) (by omega)
  rw [matchStep]
  refine Ok.bind (baseExtra_ok hz hlb hle hl13) ?_
  rintro ⟨len, z1⟩ ⟨hlen, h1⟩
  simp only at hlen h1 ⊢
  have hrl : ∀ bs, num bs = z.val → le ≤ bs.length → readLength s bs = some (len, bs.drop le) := by
    intro bs hb hl
    rw [readLength, hlc, Option.bind_some, takeNum_eq hl, hlen, hb]
    rfl
  have hrl' : ∀ bs d len' rest, num bs = z.val → readPair dist s bs = some ((d, len'), rest) → le ≤ bs.length ∧ len' = len ∧
      readDistWith dist (bs.drop le) = some (d, rest) := by
    intro bs d len' rest hb h
    rw [readPair, Option.bind_eq_some_iff] at h
    obtain ⟨r, hr, h⟩ := h
    obtain ⟨c, hc, hl, rfl⟩ := readLength_some hr
    rw [hlc] at hc
    cases hc
    rw [Option.map_eq_some_iff] at h
    obtain ⟨⟨d', rest'⟩, h2, h3⟩ := h
    cases h3
    exact ⟨hl, by simp only; rw [hlen, hb], h2⟩
  refine Ok.bind (zhuffman_decode_ok ht h1.wf) ?_
  rintro ⟨d, z2⟩ h2
  simp only
  cases d with
  | none =>
    refine Ok.pure' ?_
    intro bs cap hb hbl hcap d len' rest m hp h32 hcb hm
    obtain ⟨h3, h4, h5⟩ := hrl' bs d len' rest hb hp
    obtain ⟨d, c, h6, h7, h8, h9⟩ := readDistWith_some hf h15 h5
    cases h9
    rw [List.length_drop, List.length_drop] at h32
    have hl1 := (h1.left (by omega)).1
    refine h2.2 (by omega) d ?_
    rw [h1.val, ← hb, ← num_drop]
    exact h6
  | some d =>
    obtain ⟨hst, h2⟩ := h2
    simp only at h2 ⊢
    have hnum : ∀ bs, num bs = z.val → num (bs.drop le) = z1.val := by
      intro bs hb
      rw [num_drop, hb, h1.val]
    by_cases h30 : 30 ≤ d
    · rw [if_pos h30]
      refine Ok.pure' ?_
      intro bs cap hb hbl hcap d' len' rest m hp h32 hcb hm
      obtain ⟨h3, h4, h5⟩ := hrl' bs d' len' rest hb hp
      obtain ⟨d'', c, h6, h7, h8, h9⟩ := readDistWith_some hf h15 h5
      rw [hnum bs hb] at h6
      rw [h6.unique hst, List.getElem?_eq_none (by show 30 ≤ d; exact h30)] at h7
      cases h7
    · rw [if_neg h30]
      obtain ⟨db, de, hdb, hde, hdc, hd13, hd0⟩ := dist_tables d (by omega)
      refine Ok.bind (baseExtra_ok h2.wf hdb hde hd13) ?_
      rintro ⟨dd, z3⟩ ⟨hdd, h3⟩
      simp only at hdd h3 ⊢
      have hadv : Adv (le + (dist.getD d 0 + de)) z z3 := h1.trans (h2.trans h3)
      have ho3 := hadv.out ho
      have hdd' : dd = db + z1.val / 2 ^ dist.getD d 0 % 2 ^ de := by rw [hdd, h2.val]
      have hpair : ∀ bs, num bs = z.val → le + (dist.getD d 0 + de) ≤ bs.length →
          readPair dist s bs = some ((dd, len), bs.drop (le + (dist.getD d 0 + de))) := by
        intro bs hb hl
        rw [readPair, hrl bs hb (by omega), Option.bind_some, readDistWith,
          readCode_eq hf h15 (i := d) (by rw [hnum bs hb]; exact hst) (by simp only [List.length_drop]; omega), Option.bind_some, hdc,
          Option.bind_some, takeNum_eq (by simp only [List.length_drop]; omega)]
        simp only [Option.map_some]
        rw [num_drop, hnum bs hb, hdd', List.drop_drop, List.drop_drop]
      have hpair' : ∀ bs d' len' rest, num bs = z.val → readPair dist s bs = some ((d', len'), rest) →
          d' = dd ∧ len' = len ∧ rest = bs.drop (le + (dist.getD d 0 + de)) ∧ le + (dist.getD d 0 + de) ≤ bs.length := by
        intro bs d' len' rest hb hp
        obtain ⟨h4, h5, h6⟩ := hrl' bs d' len' rest hb hp
        obtain ⟨d'', c, h7, h8, h9, h10⟩ := readDistWith_some hf h15 h6
        rw [hnum bs hb] at h7
        have := h7.unique hst
        subst this
        rw [hdc] at h8
        cases h8
        rw [List.length_drop] at h9
        have h11 := hpair bs hb (by simp only at h9; omega)
        rw [hp] at h11
        cases h11
        exact ⟨rfl, rfl, rfl, by simp only at h9; omega⟩
      rw [ho3.zout]
      by_cases hfar : l.length < dd
      · rw [if_pos hfar]
        refine Ok.pure' ?_
        intro bs cap hb hbl hcap d' len' rest m hp h32 hcb hm
        obtain ⟨rfl, rfl, h6, h7⟩ := hpair' bs d' len' rest hb hp
        have := copyBack_length hcb (by omega)
        omega
      · rw [if_neg hfar]
        refine Ok.bind (room_ok ho3 len) ?_
        rintro ⟨ok, z4⟩ ⟨ho4, hs4, hcap4, hok, hroom⟩
        simp only at ho4 hs4 hcap4 hok hroom ⊢
        cases ok with
        | false =>
          refine Ok.pure' ?_
          intro bs cap hb hbl hcap d' len' rest m hp h32 hcb hm
          obtain ⟨rfl, rfl, h6, h7⟩ := hpair' bs d' len' rest hb hp
          have h8 := copyBack_length hcb (by omega)
          have := hroom cap (hadv.go.canHold hcap) (by omega)
          cases this
        | true =>
          rw [if_pos rfl]
          have hcl : (outCells l z4.out.length).length = z4.out.length := outCells_length ho4.le
          rw [ho4.zout, ho4.out]
          refine Ok.bind (copyRun_ok (l := l) (cap := z4.out.length) (d := dd) (n := len) (by omega) (by omega) (hok rfl)) ?_
          rintro _ ⟨m, hm1, hm2, rfl⟩
          have hml : (outCells m z4.out.length).length = z4.out.length := outCells_length (by have := hok rfl; omega)
          refine Ok.pure' ⟨le + (dist.getD d 0 + de), dd, len, m, ?_, ?_, by omega, hm1, hpair,
            fun bs p hb hp => (hpair' bs p.1.1 p.1.2 p.2 hb hp).2.2.2⟩
          · have hg := hadv.go.trans (hs4.go hadv.wf hcap4)
            rw [Nat.add_zero] at hg
            refine ⟨⟨hg.wf.pos, hg.wf.nonneg, hg.wf.le, hg.wf.code⟩, hg.zin, hg.grows, ?_, hg.val, hg.mod, hg.left⟩
            have := hg.cap
            simp only [hml]
            exact this
          · have := hok rfl
            refine ⟨?_, ?_, ?_, ?_, ?_⟩ <;> simp only [hml]
            · omega
            · omega
            · exact ho4.pos
            · exact ho4.lt

/-- What one round does. -/
def StepPost (lit dist : List Nat) (z : ZBuf) (l : List UInt8) (r : Ctl × ZBuf) : Prop :=
  match r.1 with
  | .more => ∃ n m, 0 < n ∧ Go n z r.2 ∧ OutIs r.2 m ∧ l.length < m.length ∧
      (∀ bs, num bs = z.val → n ≤ bs.length → ∀ f, inflateWith lit dist (f + 1) bs l = inflateWith lit dist f (bs.drop n) m) ∧
      ∀ bs f r, num bs = z.val → inflateWith lit dist f bs l = some r → n ≤ bs.length
  | .done => ∃ n, 0 < n ∧ Go n z r.2 ∧ OutIs r.2 l ∧
      (∀ bs, num bs = z.val → n ≤ bs.length → ∀ f, inflateWith lit dist (f + 1) bs l = some (bs.drop n, l)) ∧
      ∀ bs f r, num bs = z.val → inflateWith lit dist f bs l = some r → n ≤ bs.length
  | .fail => ∀ bs cap, num bs = z.val → bs.length = z.left → z.hit = false → CanHold z cap → ∀ f rest o,
      inflateWith lit dist f bs l = some (rest, o) → 32 ≤ rest.length → o.length ≤ cap → False

theorem readSymWith_pair {lit dist : List Nat} {bs bs1 : List Bool} {s : Nat} (h : readCode lit bs = some (s, bs1)) (hs : 257 ≤ s) :
    readSymWith lit dist bs = (readPair dist s bs1).map fun p => (.copy p.1.1 p.1.2, p.2) := by
  rw [readSymWith, h, Option.bind_some]
  simp only
  rw [if_neg (by omega), if_neg (by omega), readPair]
  cases readLength s bs1 with
  | none => rfl
  | some l =>
    rw [Option.bind_some, Option.bind_some, Option.map_map]
    rfl

theorem readPair_length {dist : List Nat} (hf : Feasible dist) (h15 : ∀ i, dist.getD i 0 ≤ 15) {s : Nat} {bs rest : List Bool}
    {p : Nat × Nat} (h : readPair dist s bs = some (p, rest)) : rest.length ≤ bs.length ∧ 0 < p.2 := by
  rw [readPair, Option.bind_eq_some_iff] at h
  obtain ⟨r, hr, h⟩ := h
  obtain ⟨c, hc, hl, rfl⟩ := readLength_some hr
  rw [Option.map_eq_some_iff] at h
  obtain ⟨d, h2, h3⟩ := h
  obtain ⟨d', c', h6, h7, h8, h9⟩ := readDistWith_some hf h15 h2
  cases h3
  rw [h9]
  simp only [List.length_drop]
  have : ∀ c ∈ lengthCodes, 0 < c.1 := by decide
  have := this c (List.mem_of_getElem? hc)
  exact ⟨by omega, by omega⟩

/-- A block that can be read leaves a part of the input, and extends the output. -/
theorem inflateWith_length {lit dist : List Nat} (hl : Feasible lit) (hl15 : ∀ i, lit.getD i 0 ≤ 15) (hd : Feasible dist)
    (hd15 : ∀ i, dist.getD i 0 ≤ 15) : ∀ (f : Nat) (bs : List Bool) (l : List UInt8) (rest : List Bool) (o : List UInt8),
    inflateWith lit dist f bs l = some (rest, o) → rest.length ≤ bs.length ∧ l.length ≤ o.length
  | 0, bs, l, rest, o, h => by cases h
  | f + 1, bs, l, rest, o, h => by
    rw [inflateWith, Option.bind_eq_some_iff] at h
    obtain ⟨⟨s, bs1⟩, h1, h2⟩ := h
    have hlen : bs1.length ≤ bs.length := by
      cases hc : readCode lit bs with
      | none => rw [readSymWith, hc] at h1; cases h1
      | some c =>
        obtain ⟨c, bs2⟩ := c
        obtain ⟨_, h4, h5⟩ := readCode_some hl hl15 hc
        simp only at h4 h5
        by_cases hs : 257 ≤ c
        · rw [readSymWith_pair hc hs, Option.map_eq_some_iff] at h1
          obtain ⟨p, h6, h7⟩ := h1
          have := (readPair_length hd hd15 h6).1
          cases h7
          rw [h5, List.length_drop] at this
          omega
        · rw [readSymWith, hc, Option.bind_some] at h1
          have : bs1 = bs2 := by
            simp only at h1
            split_ifs at h1
            · cases h1; rfl
            · cases h1; rfl
            · omega
          rw [this, h5, List.length_drop]
          omega
    cases s with
    | literal b =>
      have := inflateWith_length hl hl15 hd hd15 f bs1 _ rest o h2
      rw [List.length_append] at this
      omega
    | stop =>
      cases h2
      exact ⟨hlen, le_rfl⟩
    | copy d n =>
      simp only at h2
      rw [Option.bind_eq_some_iff] at h2
      obtain ⟨m, h6, h7⟩ := h2
      have := inflateWith_length hl hl15 hd hd15 f bs1 m rest o h7
      rcases Nat.eq_zero_or_pos n with h0 | h0
      · subst h0
        cases h6
        omega
      · have := copyBack_length h6 h0
        omega

theorem huffStep_ok {lit dist : List Nat} {zl zd : ZHuff} (hl : Tab lit zl) (hd : Tab dist zd) {z : ZBuf} {l : List UInt8} (hz : WF z)
    (ho : OutIs z l) : Ok (huffStep zl zd z) (StepPost lit dist z l) := by
  have hlf := hl.feasible
  have hl15 := hl.le15
  rw [huffStep]
  refine Ok.bind (zhuffman_decode_ok hl hz) ?_
  rintro ⟨s, z1⟩ h1
  simp only
  -- a run that succeeds reads a symbol
  have hrun : ∀ bs f rest o, num bs = z.val → inflateWith lit dist f bs l = some (rest, o) → ∃ i g, f = g + 1 ∧
      Starts lit (rev z.val 16) i ∧ lit.getD i 0 ≤ bs.length ∧ readCode lit bs = some (i, bs.drop (lit.getD i 0)) := by
    intro bs f rest o hb h
    cases f with
    | zero => cases h
    | succ g =>
      rw [inflateWith, Option.bind_eq_some_iff] at h
      obtain ⟨s, h2, h3⟩ := h
      cases hc : readCode lit bs with
      | none => rw [readSymWith, hc] at h2; cases h2
      | some c =>
        obtain ⟨h4, h5, h6⟩ := readCode_some hlf hl15 hc
        rw [hb] at h4
        exact ⟨c.1, g, rfl, h4, h5, by rw [← h6]⟩
  cases s with
  | none =>
    refine Ok.pure' ?_
    intro bs cap hb hbl hh hcap f rest o hi h32 hoc
    obtain ⟨i, g, rfl, h2, h3, h4⟩ := hrun bs f rest o hb hi
    have := (inflateWith_length hlf hl15 hd.feasible hd.le15 _ _ _ _ _ hi).1
    exact h1.2 (by omega) i h2
  | some s =>
    obtain ⟨hst, h1⟩ := h1
    simp only at h1 ⊢
    have hrc : ∀ bs, num bs = z.val → lit.getD s 0 ≤ bs.length → readCode lit bs = some (s, bs.drop (lit.getD s 0)) := by
      intro bs hb hlen
      exact readCode_eq hlf hl15 (by rw [hb]; exact hst) hlen
    have hrun' : ∀ bs f rest o, num bs = z.val → inflateWith lit dist f bs l = some (rest, o) → ∃ g, f = g + 1 ∧
        lit.getD s 0 ≤ bs.length ∧ readCode lit bs = some (s, bs.drop (lit.getD s 0)) := by
      intro bs f rest o hb h
      obtain ⟨i, g, h2, h3, h4, h5⟩ := hrun bs f rest o hb h
      rw [h3.unique hst] at h4 h5
      exact ⟨g, h2, h4, h5⟩
    have ho1 := h1.out ho
    have hpos : 0 < lit.getD s 0 := Nat.pos_of_ne_zero hst.2.1
    by_cases h256 : s < 256
    · rw [if_pos h256]
      have hsym : ∀ bs, readCode lit bs = some (s, bs.drop (lit.getD s 0)) → ∀ f, inflateWith lit dist (f + 1) bs l =
          inflateWith lit dist f (bs.drop (lit.getD s 0)) (l ++ [UInt8.ofNat s]) := by
        intro bs hc f
        rw [inflateWith, readSymWith, hc, Option.bind_some]
        simp only
        rw [if_pos h256, Option.bind_some]
      refine Ok.bind (room_ok ho1 1) ?_
      rintro ⟨ok, z2⟩ ⟨ho2, hs2, hcap2, hok, hroom⟩
      simp only at ho2 hs2 hcap2 hok hroom ⊢
      cases ok with
      | false =>
        refine Ok.pure' ?_
        intro bs cap hb hbl hh hcap f rest o hi h32 hoc
        obtain ⟨g, rfl, h3, h4⟩ := hrun' bs f rest o hb hi
        rw [hsym bs h4] at hi
        have := (inflateWith_length hlf hl15 hd.feasible hd.le15 _ _ _ _ _ hi).2
        rw [List.length_append, List.length_singleton] at this
        have := hroom cap (h1.go.canHold hcap) (by omega)
        cases this
      | true =>
        rw [if_pos rfl]
        have hr := hok rfl
        rw [ho2.zout, ho2.out, outCells_wr (by omega), ok_bind]
        have hml : (outCells (l ++ [UInt8.ofNat s]) z2.out.length).length = z2.out.length :=
          outCells_length (by rw [List.length_append, List.length_singleton]; omega)
        refine Ok.pure' ⟨lit.getD s 0, l ++ [UInt8.ofNat s], hpos, ?_, ?_, by rw [List.length_append, List.length_singleton]; omega, ?_, ?_⟩
        · have hg := h1.go.trans (hs2.go h1.wf hcap2)
          rw [Nat.add_zero] at hg
          refine ⟨⟨hg.wf.pos, hg.wf.nonneg, hg.wf.le, hg.wf.code⟩, hg.zin, hg.grows, ?_, hg.val, hg.mod, hg.left⟩
          have := hg.cap
          simp only [hml]
          exact this
        · refine ⟨?_, ?_, ?_, ?_, ?_⟩ <;> simp only [hml]
          · rw [List.length_append, List.length_singleton]
          · rw [List.length_append, List.length_singleton]; omega
          · exact ho2.pos
          · exact ho2.lt
        · intro bs hb hlen f
          exact hsym bs (hrc bs hb hlen) f
        · intro bs f r hb h
          obtain ⟨_, _, h2, _⟩ := hrun' bs f r.1 r.2 hb h
          exact h2
    · rw [if_neg h256]
      by_cases he : s = 256
      · rw [if_pos he]
        have hsym : ∀ bs, readCode lit bs = some (s, bs.drop (lit.getD s 0)) → ∀ f, inflateWith lit dist (f + 1) bs l =
            some (bs.drop (lit.getD s 0), l) := by
          intro bs hc f
          rw [inflateWith, readSymWith, hc, Option.bind_some]
          simp only
          rw [if_neg h256, if_pos he, Option.bind_some]
        by_cases hh : z1.hit = true ∧ z1.numBits < 16
        · rw [if_pos hh]
          refine Ok.pure' ?_
          intro bs cap hb hbl hhit hcap f rest o hi h32 hoc
          obtain ⟨g, rfl, h3, h4⟩ := hrun' bs f rest o hb hi
          rw [hsym bs h4] at hi
          cases hi
          rw [List.length_drop] at h32
          have := (h1.left (by omega)).2
          rw [hh.1, hhit] at this
          cases this
        · rw [if_neg hh]
          refine Ok.pure' ⟨lit.getD s 0, hpos, h1.go, ho1, fun bs hb hlen f => hsym bs (hrc bs hb hlen) f, fun bs f r hb h => ?_⟩
          obtain ⟨_, _, h2, _⟩ := hrun' bs f r.1 r.2 hb h
          exact h2
      · rw [if_neg he]
        by_cases h286 : 286 ≤ s
        · rw [if_pos h286]
          refine Ok.pure' ?_
          intro bs cap hb hbl hhit hcap f rest o hi h32 hoc
          obtain ⟨g, rfl, h3, h4⟩ := hrun' bs f rest o hb hi
          rw [inflateWith, readSymWith_pair h4 (by omega), readPair, readLength, List.getElem?_eq_none (by show 29 ≤ s - 257; omega)] at hi
          cases hi
        · rw [if_neg h286]
          refine (matchStep_ok hd h1.wf ho1 (by omega) (by omega)).mono ?_
          rintro ⟨c, z2⟩ h2
          cases c with
          | more =>
            obtain ⟨n, d, len, m, hg, hom, hlt, hcb, hp, hp'⟩ := h2
            refine ⟨lit.getD s 0 + n, m, by omega, h1.go.trans hg, hom, hlt, fun bs hb hlen f => ?_, fun bs f r hb h => ?_⟩
            · rw [inflateWith, readSymWith_pair (hrc bs hb (by omega)) (by omega),
                hp _ (by rw [num_drop, hb, h1.val]) (by rw [List.length_drop]; omega)]
              simp only [Option.map_some, Option.bind_some]
              rw [hcb, Option.bind_some, List.drop_drop]
            · obtain ⟨g, rfl, h3, h4⟩ := hrun' bs f r.1 r.2 hb h
              rw [inflateWith, readSymWith_pair h4 (by omega), Option.bind_eq_some_iff] at h
              obtain ⟨q, h5, h6⟩ := h
              rw [Option.map_eq_some_iff] at h5
              obtain ⟨p, h7, _⟩ := h5
              have := hp' _ p (by rw [num_drop, hb, h1.val]) h7
              rw [List.length_drop] at this
              omega
          | done => exact absurd h2 id
          | fail =>
            intro bs cap hb hbl hhit hcap f rest o hi h32 hoc
            obtain ⟨g, rfl, h3, h4⟩ := hrun' bs f rest o hb hi
            rw [inflateWith, readSymWith_pair h4 (by omega), Option.bind_eq_some_iff] at hi
            obtain ⟨q, h5, h6⟩ := hi
            rw [Option.map_eq_some_iff] at h5
            obtain ⟨⟨⟨d, len⟩, rest'⟩, h7, rfl⟩ := h5
            simp only at h6
            rw [Option.bind_eq_some_iff] at h6
            obtain ⟨m, h8, h9⟩ := h6
            have h10 := inflateWith_length hlf hl15 hd.feasible hd.le15 _ _ _ _ _ h9
            have h11 := (readPair_length hd.feasible hd.le15 h7).1
            rw [List.length_drop] at h11
            have hleft := (h1.left (by omega)).1
            exact h2 (bs.drop (lit.getD s 0)) cap (by rw [num_drop, hb, h1.val]) (by rw [List.length_drop]; omega) (h1.go.canHold hcap)
              d len rest' m h7 (by omega) h8 (by omega)

/-! ### The loop -/

theorem ctlLoop_ok {fuel : Nat} {z : ZBuf} {step : ZBuf → CM (Ctl × ZBuf)} (I : ZBuf → Prop) (μ : ZBuf → Nat) (S : Bool × ZBuf → Prop)
    (h0 : I z) (hf : μ z < fuel)
    (hstep : ∀ z, I z → Ok (step z) (fun r => match r.1 with
      | .more => I r.2 ∧ μ r.2 < μ z
      | .done => S (true, r.2)
      | .fail => S (false, r.2))) : Ok (ctlLoop fuel z step) S := by
  have key := whileFuel_ok (fuel := fuel) (s := ((.more, z) : Ctl × ZBuf)) (step := fun t : Ctl × ZBuf => do
      let (c, z) ← step t.2
      Pure.pure ((c, z), decide (c ≠ .more)))
    (fun t => I t.2) (fun t => μ t.2) (fun t => S (decide (t.1 = .done), t.2)) h0 hf ?_
  · rw [ctlLoop]
    refine Ok.bind key ?_
    rintro ⟨c, y⟩ h
    exact Ok.pure' h
  · rintro ⟨c, y⟩ hI
    refine Ok.bind (hstep y hI) ?_
    rintro ⟨c', y'⟩ h
    refine Ok.pure' ?_
    cases c' with
    | more => exact h
    | done => exact h
    | fail => exact h

/-- A block was read as the specification says, or the specification reads nothing that is followed by 32 more bits. -/
def OutPost (spec : List Bool → Option (List Bool × List UInt8)) (z : ZBuf) (r : Bool × ZBuf) : Prop :=
  if r.1 then ∃ n m, Go n z r.2 ∧ OutIs r.2 m ∧
    (∀ bs, num bs = z.val → (bs.length : Int) % 8 = z.numBits % 8 → n ≤ bs.length → spec bs = some (bs.drop n, m)) ∧
    ∀ bs p, num bs = z.val → (bs.length : Int) % 8 = z.numBits % 8 → spec bs = some p → n ≤ bs.length
  else ∀ bs cap, num bs = z.val → bs.length = z.left → z.hit = false → CanHold z cap → ∀ rest o,
      spec bs = some (rest, o) → 32 ≤ rest.length → o.length ≤ cap → False

theorem block_ok {lit dist : List Nat} {zl zd : ZHuff} (hl : Tab lit zl) (hd : Tab dist zd) {z : ZBuf} {l : List UInt8} (hz : WF z)
    (ho : OutIs z l) : Ok (parse_huffman_block zl zd z) (OutPost (fun bs => inflateWith lit dist (bs.length + 1) bs l) z) := by
  refine ctlLoop_ok (fun y => ∃ n m k, k ≤ n ∧ Go n z y ∧ OutIs y m ∧
      (∀ bs, num bs = z.val → n ≤ bs.length → ∀ f, inflateWith lit dist (f + k) bs l = inflateWith lit dist f (bs.drop n) m) ∧
      (∀ bs, num bs = z.val → ∀ f r, inflateWith lit dist f bs l = some r →
        n ≤ bs.length ∧ ∃ g, inflateWith lit dist g (bs.drop n) m = some r))
    (fun y => 4294967296 - y.zout) _ ⟨0, l, 0, le_rfl, Go.refl hz, ho, fun bs _ _ f => rfl, fun bs _ f r h => ⟨Nat.zero_le _, f, h⟩⟩ ?_ ?_
  · show 4294967296 - z.zout < 4294967297
    omega
  · rintro y ⟨n, m, k, hk, hg, hom, h1, h2⟩
    refine (huffStep_ok hl hd hg.wf hom).mono ?_
    have hval : ∀ bs, num bs = z.val → num (bs.drop n) = y.val := fun bs hb => by rw [num_drop, hb, hg.val]
    rintro ⟨c, y'⟩ h3
    cases c with
    | more =>
      obtain ⟨n', m', hn0, hg', hom', hlt, h4, h4'⟩ := h3
      refine ⟨⟨n + n', m', k + 1, by omega, hg.trans hg', hom', fun bs hb hlen f => ?_, fun bs hb f r hi => ?_⟩, ?_⟩
      · rw [show f + (k + 1) = (f + 1) + k by omega, h1 bs hb (by omega), h4 _ (hval bs hb) (by rw [List.length_drop]; omega), List.drop_drop]
      · obtain ⟨h5, g, h6⟩ := h2 bs hb f r hi
        have h7 := h4' _ g _ (hval bs hb) h6
        rw [List.length_drop] at h7
        cases g with
        | zero => cases h6
        | succ g =>
          rw [h4 _ (hval bs hb) (by rw [List.length_drop]; omega), List.drop_drop] at h6
          exact ⟨by omega, g, h6⟩
      · show 4294967296 - y'.zout < 4294967296 - y.zout
        have e1 : y'.zout = m'.length := hom'.zout
        have e2 : y.zout = m.length := hom.zout
        have e3 : m'.length ≤ y'.out.length := hom'.le
        have e4 : y'.out.length < 4294967296 := hom'.lt
        omega
    | done =>
      obtain ⟨n', hn0, hg', hom', h4, h4'⟩ := h3
      show OutPost _ z (true, y')
      rw [OutPost, if_pos rfl]
      refine ⟨n + n', m, hg.trans hg', hom', fun bs hb _ hlen => ?_, fun bs p hb _ hi => ?_⟩
      · rw [show bs.length + 1 = (bs.length - k + 1) + k by omega, h1 bs hb (by omega), h4 _ (hval bs hb) (by rw [List.length_drop]; omega), List.drop_drop]
      · obtain ⟨h5, g, h6⟩ := h2 bs hb _ _ hi
        have h7 := h4' _ g _ (hval bs hb) h6
        rw [List.length_drop] at h7
        omega
    | fail =>
      show OutPost _ z (false, y')
      rw [OutPost, if_neg (by simp)]
      intro bs cap hb hbl hhit hcap rest o hi h32 hoc
      obtain ⟨h5, g, h6⟩ := h2 bs hb _ _ hi
      have h7 := (inflateWith_length hl.feasible hl.le15 hd.feasible hd.le15 _ _ _ _ _ h6).1
      rw [List.length_drop] at h7
      have h8 := hg.left (by omega)
      exact h3 (bs.drop n) cap (hval bs hb) (by rw [List.length_drop]; omega) (h8.2.trans hhit) (hg.canHold hcap) g rest o h6 h32 hoc

end FlatCV
