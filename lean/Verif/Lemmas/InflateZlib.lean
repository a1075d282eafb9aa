/-
A whole stream.
-/
import Verif.Lemmas.InflateTables
import Verif.Lemmas.InflateStored
import Mathlib.Data.Nat.Size

namespace FlatCV

open FlatCV.Model FlatCV.Png

theorem readLength_shrinks (s : Nat) : Shrinks (readLength s) := by
  unfold readLength
  cases lengthCodes[s - 257]? with
  | none => exact none_shrinks
  | some c => exact map_shrinks (takeNum_shrinks c.2) (fun v => c.1 + v)

theorem readDist_shrinks (dist : List Nat) : Shrinks (readDistWith dist) := by
  refine Shrinks.bind (s2 := fun s bs => distCodes[s]?.bind fun c => (takeNum c.2 bs).map fun r => (c.1 + r.1, r.2)) (readCode_shrinks dist) ?_
  intro s
  cases distCodes[s]? with
  | none => exact none_shrinks
  | some c => exact map_shrinks (takeNum_shrinks c.2) (fun v => c.1 + v)

def symOf (dist : List Nat) (s : Nat) (bs : List Bool) : Option (Sym × List Bool) :=
  if s < 256 then some (.literal (UInt8.ofNat s), bs)
  else if s = 256 then some (.stop, bs)
  else (readLength s bs).bind fun l => (readDistWith dist l.2).map fun d => (.copy d.1 l.1, d.2)

theorem readSymWith_eq (lit dist : List Nat) : readSymWith lit dist = fun bs => (readCode lit bs).bind fun r => symOf dist r.1 r.2 := rfl

theorem readSym_shrinks (lit dist : List Nat) : Shrinks (readSymWith lit dist) := by
  rw [readSymWith_eq]
  refine Shrinks.bind (readCode_shrinks lit) ?_
  intro s
  unfold symOf
  by_cases h1 : s < 256
  · simp only [if_pos h1]
    exact pure_shrinks (Sym.literal (UInt8.ofNat s))
  · simp only [if_neg h1]
    by_cases h2 : s = 256
    · simp only [if_pos h2]
      exact pure_shrinks Sym.stop
    · simp only [if_neg h2]
      have h3 := readLength_shrinks s
      generalize readLength s = g at h3
      exact Shrinks.bind (s2 := fun l bs => (readDistWith dist bs).map fun d => (Sym.copy d.1 l, d.2)) h3
        fun l => map_shrinks (readDist_shrinks dist) fun d => Sym.copy d l

/-- What is left is not longer, and the output is not shorter. -/
def Grows (spec : List Bool → List UInt8 → Option (List Bool × List UInt8)) : Prop :=
  ∀ bs l rest o, spec bs l = some (rest, o) → rest.length ≤ bs.length ∧ l.length ≤ o.length

theorem inflateWith_grows (lit dist : List Nat) : ∀ f, Grows (inflateWith lit dist f)
  | 0 => fun bs l rest o h => by cases h
  | f + 1 => fun bs l rest o h => by
    rw [inflateWith, Option.bind_eq_some_iff] at h
    obtain ⟨⟨s, bs1⟩, h1, h2⟩ := h
    have hlen := readSym_shrinks lit dist _ _ _ h1
    cases s with
    | literal b =>
      have := inflateWith_grows lit dist f bs1 _ rest o h2
      rw [List.length_append] at this
      omega
    | stop =>
      cases h2
      exact ⟨hlen, le_rfl⟩
    | copy d n =>
      simp only at h2
      rw [Option.bind_eq_some_iff] at h2
      obtain ⟨m, h6, h7⟩ := h2
      have := inflateWith_grows lit dist f bs1 m rest o h7
      rcases Nat.eq_zero_or_pos n with h0 | h0
      · subst h0
        cases h6
        omega
      · have := copyBack_length h6 h0
        omega

theorem inflateStored_grows : Grows inflateStored := by
  intro bs l rest o h
  have h32 := inflateStored_needs rfl h
  rw [inflateStored_eq rfl h32] at h
  split_ifs at h
  rw [Option.map_eq_some_iff] at h
  obtain ⟨p, hp, hpe⟩ := h
  obtain ⟨h1, h2⟩ := takeBytes_length _ hp
  cases hpe
  rw [List.length_drop] at h2
  rw [List.length_append]
  omega

theorem inflateBlock_grows (type : Nat) : Grows (inflateBlock type) := by
  intro bs l rest o h
  rw [inflateBlock] at h
  split_ifs at h
  · exact inflateStored_grows _ _ _ _ h
  · exact inflateWith_grows _ _ _ _ _ _ _ h
  · rw [Option.bind_eq_some_iff] at h
    obtain ⟨⟨c, bs1⟩, h1, h2⟩ := h
    have h3 := readCodes_shrinks _ _ _ h1
    have h4 := inflateWith_grows _ _ _ _ _ _ _ h2
    exact ⟨h4.1.trans h3, h4.2⟩

/-- A block with its header. -/
def blockSpec (l : List UInt8) (bs : List Bool) : Option (List Bool × List UInt8) :=
  (takeNum 1 bs).bind fun a => (takeNum 2 a.2).bind fun t => inflateBlock t.1 t.2 l

theorem blockSpec_grows : Grows (fun bs l => blockSpec l bs) := by
  intro bs l rest o h
  simp only [blockSpec] at h
  rw [Option.bind_eq_some_iff] at h
  obtain ⟨⟨a, bs1⟩, h1, h2⟩ := h
  rw [Option.bind_eq_some_iff] at h2
  obtain ⟨⟨t, bs2⟩, h3, h4⟩ := h2
  have h5 := takeNum_shrinks _ _ _ _ h1
  have h6 := takeNum_shrinks _ _ _ _ h3
  have h7 := inflateBlock_grows _ _ _ _ _ h4
  simp only at h5 h6 h7
  omega

theorem inflateAll_succ (f : Nat) (bs : List Bool) (l : List UInt8) :
    inflateAll (f + 1) bs l = (blockSpec l bs).bind fun r => if num bs % 2 = 1 then some r else inflateAll f r.1 r.2 := by
  rw [inflateAll, blockSpec, Option.bind_assoc]
  by_cases h : 1 ≤ bs.length
  · rw [takeNum_eq h]
    simp only [Option.bind_some, Option.bind_assoc, pow_one]
  · rw [takeNum, if_neg h]
    rfl

theorem inflateAll_grows : ∀ f, Grows (inflateAll f)
  | 0 => fun bs l rest o h => by cases h
  | f + 1 => fun bs l rest o h => by
    rw [inflateAll_succ, Option.bind_eq_some_iff] at h
    obtain ⟨⟨bs1, l1⟩, h1, h2⟩ := h
    have h3 := blockSpec_grows _ _ _ _ h1
    simp only at h2
    split_ifs at h2
    · cases h2
      exact h3
    · have h4 := inflateAll_grows f _ _ _ _ h2
      omega

/-- Something is read before a block. -/
theorem OutPost.after {α : Type} {s1 : List Bool → Option (α × List Bool)} {s2 : α → List Bool → Option (List Bool × List UInt8)}
    {z z1 : ZBuf} {n : Nat} {a : α} (h1 : ReadsAs s1 z z1 n a) (hg : ∀ bs rest o, s2 a bs = some (rest, o) → rest.length ≤ bs.length)
    {r : Bool × ZBuf} (h2 : OutPost (s2 a) z1 r) : OutPost (fun bs => (s1 bs).bind fun p => s2 p.1 p.2) z r := by
  have hval : ∀ bs, num bs = z.val → num (bs.drop n) = z1.val := fun bs hb => by rw [num_drop, hb, h1.adv.val]
  have hmod : ∀ bs : List Bool, n ≤ bs.length → (bs.length : Int) % 8 = z.numBits % 8 → ((bs.drop n).length : Int) % 8 = z1.numBits % 8 := by
    intro bs hn h8
    have := h1.adv.mod
    rw [List.length_drop]
    omega
  rw [OutPost] at h2 ⊢
  by_cases hr : r.1 = true
  · rw [if_pos hr] at h2 ⊢
    obtain ⟨m, l, h3, h4, h5, h6⟩ := h2
    refine ⟨n + m, l, h1.adv.go.trans h3, h4, fun bs hb h8 hl => ?_, fun bs p hb h8 hp => ?_⟩
    · rw [h1.eq bs hb (by omega), Option.bind_some, h5 _ (hval bs hb) (hmod bs (by omega) h8) (by rw [List.length_drop]; omega), List.drop_drop]
    · rw [Option.bind_eq_some_iff] at hp
      obtain ⟨q, hq, hp⟩ := hp
      have hn := h1.needs bs q hb hq
      rw [h1.eq bs hb hn] at hq
      cases hq
      have := h6 _ p (hval bs hb) (hmod bs hn h8) hp
      rw [List.length_drop] at this
      omega
  · rw [if_neg hr] at h2 ⊢
    intro bs cap hb hbl hhit hcap rest o hp h32 ho
    rw [Option.bind_eq_some_iff] at hp
    obtain ⟨q, hq, hp⟩ := hp
    have hn := h1.needs bs q hb hq
    rw [h1.eq bs hb hn] at hq
    cases hq
    have h3 := hg _ _ _ hp
    rw [List.length_drop] at h3
    obtain ⟨h4, h5⟩ := h1.adv.left (by omega)
    refine h2 (bs.drop n) cap (hval bs hb) (by rw [List.length_drop]; omega) (h5.trans hhit) ?_ rest o hp h32 ho
    rw [CanHold, h1.adv.same.out, h1.adv.same.grows]
    exact hcap

theorem Same.out_iff {z z' : ZBuf} (h : Same z z') {l : List UInt8} (ho : OutIs z l) : OutIs z' l :=
  ⟨by rw [h.out]; exact ho.out, by rw [h.zout]; exact ho.zout, by rw [h.out]; exact ho.le, by rw [h.out]; exact ho.pos,
    by rw [h.out]; exact ho.lt⟩

theorem OutPost.congr {s s' : List Bool → Option (List Bool × List UInt8)} {z : ZBuf} {r : Bool × ZBuf} (h : ∀ bs, s' bs = s bs)
    (hp : OutPost s z r) : OutPost s' z r := by
  rwa [show s' = s from funext h]

theorem body_ok {type : Nat} (ht : type < 4) {s : ZState} {l : List UInt8} (hl : Shape s.zl) (hd : Shape s.zd) (hz : WF s.z) (ho : OutIs s.z l) :
    Ok (blockBody type s) (fun r => Shape r.2.zl ∧ Shape r.2.zd ∧ OutPost (fun bs => inflateBlock type bs l) s.z (r.1, r.2.z)) := by
  rw [blockBody]
  by_cases h0 : type = 0
  · rw [if_pos h0]
    refine Ok.bind (stored_ok hz ho) ?_
    rintro ⟨ok, z⟩ h
    refine Ok.pure' ⟨hl, hd, h.congr fun bs => ?_⟩
    rw [inflateBlock, if_pos h0]
  · rw [if_neg h0]
    by_cases h3 : type = 3
    · rw [if_pos h3]
      refine Ok.pure' ⟨hl, hd, ?_⟩
      rw [OutPost, if_neg (by simp)]
      intro bs cap _ _ _ _ rest o hp
      rw [inflateBlock, if_neg h0, if_neg (by omega), if_neg (by omega)] at hp
      cases hp
    · rw [if_neg h3]
      have hspec : ∀ bs, inflateBlock type bs l = (tablesSpec type bs).bind fun c => inflateWith c.1.1 c.1.2 (c.2.length + 1) c.2 l := by
        intro bs
        rw [inflateBlock, if_neg h0, tablesSpec]
        by_cases h1 : type = 1
        · rw [if_pos h1, if_pos h1, Option.bind_some]
        · rw [if_neg h1, if_neg h1, if_pos (by omega)]
      refine Ok.bind (tables_ok (type := type) hl hd hz) ?_
      rintro ⟨t, z1⟩ h1
      cases t with
      | none =>
        refine Ok.pure' ⟨hl, hd, OutPost.congr hspec ?_⟩
        rw [OutPost, if_neg (by simp)]
        intro bs cap hb hbl _ _ rest o hp h32 _
        rw [Option.bind_eq_some_iff] at hp
        obtain ⟨⟨c, bs1⟩, h2, h4⟩ := hp
        have := (inflateWith_grows _ _ _ _ _ _ _ h4).1
        exact h1 bs hb hbl c bs1 h2 (by simp only at this; omega)
      | some p =>
        obtain ⟨zl, zd⟩ := p
        obtain ⟨n, lit, dist, hr, htl, htd⟩ := h1
        simp only at hr ⊢
        refine Ok.bind (block_ok htl htd hr.adv.wf (hr.adv.same.out_iff ho)) ?_
        rintro ⟨ok, z2⟩ h4
        refine Ok.pure' ⟨htl.shape, htd.shape, OutPost.congr hspec ?_⟩
        exact OutPost.after (s2 := fun c bs => inflateWith c.1 c.2 (bs.length + 1) bs l) hr
          (fun bs rest o h => (inflateWith_grows _ _ _ _ _ _ _ h).1) h4

theorem blockStep_ok {s : ZState} {l : List UInt8} (hl : Shape s.zl) (hd : Shape s.zd) (hz : WF s.z) (ho : OutIs s.z l) :
    Ok (blockStep s) (fun r => Shape r.2.zl ∧ Shape r.2.zd ∧ OutPost (blockSpec l) s.z (decide (r.1 ≠ .fail), r.2.z) ∧
      (r.1 ≠ .fail → r.1 = if s.z.val % 2 = 1 then .done else .more)) := by
  rw [blockStep]
  refine Ok.bind (zreceive_ok hz (show 1 ≤ 25 by norm_num)) ?_
  rintro ⟨final, z1⟩ ⟨hf, ha1⟩
  simp only at hf ha1 ⊢
  have h1 : ReadsAs (takeNum 1) s.z z1 1 final := by
    refine ⟨ha1, fun bs hb hn => ?_, fun bs p _ hp => ?_⟩
    · rw [takeNum_eq hn, hb, hf]
    · exact (takeNum_some (v := p.1) (rest := p.2) hp).1
  refine Ok.bind (zreceive_reads ha1.wf (show 2 ≤ 25 by norm_num)) ?_
  rintro ⟨type, z2⟩ ⟨h2, ht⟩
  simp only at h2 ht ⊢
  refine Ok.bind (body_ok (s := { s with z := z2 }) (by omega) hl hd h2.adv.wf (h2.adv.same.out_iff (ha1.same.out_iff ho))) ?_
  rintro ⟨ok, s'⟩ ⟨h3, h4, h5⟩
  refine Ok.pure' ⟨h3, h4, ?_, ?_⟩
  · have hdec : decide ((if ok then (if final = 0 then Ctl.more else .done) else .fail) ≠ .fail) = ok := by
      cases ok
      · rfl
      · by_cases hf0 : final = 0
        · simp [hf0]
        · simp [hf0]
    simp only at h5 ⊢
    rw [hdec]
    exact OutPost.after (s2 := fun _ bs => (takeNum 2 bs).bind fun t => inflateBlock t.1 t.2 l) h1
      (fun bs rest o h => by
        rw [Option.bind_eq_some_iff] at h
        obtain ⟨q, h6, h7⟩ := h
        have h8 := takeNum_shrinks _ _ q.1 q.2 h6
        have h9 := (inflateBlock_grows _ _ _ _ _ h7).1
        omega)
      (OutPost.after (s2 := fun t bs => inflateBlock t bs l) h2 (fun bs rest o h => (inflateBlock_grows _ _ _ _ _ h).1) h5)
  · intro hne
    simp only at hne ⊢
    cases ok with
    | false => simp at hne
    | true =>
      rw [if_pos rfl, hf, pow_one]
      by_cases h0 : s.z.val % 2 = 0
      · rw [if_pos h0, if_neg (by omega)]
      · rw [if_neg h0, if_pos (by omega)]

/-- The bits end in a final block that is missing: there is nothing to be read. -/
theorem blockSpec_zero {bs : List Bool} (h : num bs = 0) (l : List UInt8) : blockSpec l bs = none := by
  cases hb : blockSpec l bs with
  | none => rfl
  | some p =>
    exfalso
    rw [blockSpec, Option.bind_eq_some_iff] at hb
    obtain ⟨⟨a, bs1⟩, h1, h2⟩ := hb
    rw [Option.bind_eq_some_iff] at h2
    obtain ⟨⟨t, bs2⟩, h3, h4⟩ := h2
    obtain ⟨_, _, e1⟩ := takeNum_some h1
    obtain ⟨_, e2, e3⟩ := takeNum_some h3
    simp only at h4 e1 e2 e3
    have hn1 : num bs1 = 0 := by rw [e1, num_drop, h, Nat.zero_div]
    have hn2 : num bs2 = 0 := by rw [e3, num_drop, hn1, Nat.zero_div]
    rw [hn1] at e2
    have e2' : t = 0 := e2
    rw [inflateBlock, if_pos e2'] at h4
    have h32 := inflateStored_needs rfl h4
    rw [inflateStored_eq rfl h32, hn2, Nat.zero_div, Nat.zero_div, if_neg (by norm_num)] at h4
    cases h4

theorem size_div {v n : Nat} (hv : v ≠ 0) (hn : 0 < n) : (v / 2 ^ n).size < v.size := by
  have h0 : 0 < v.size := Nat.size_pos.2 (Nat.pos_of_ne_zero hv)
  obtain ⟨s, hs⟩ : ∃ s, v.size = s + 1 := ⟨v.size - 1, by omega⟩
  have h1 : v < 2 ^ (s + 1) := by rw [← hs]; exact Nat.lt_size_self v
  have h2 : v / 2 ^ n < 2 ^ s := by
    rw [Nat.div_lt_iff_lt_mul (by positivity), ← pow_add]
    exact lt_of_lt_of_le h1 (Nat.pow_le_pow_right (by norm_num) (by omega))
  rw [hs]
  exact Nat.lt_succ_of_le (Nat.size_le.2 h2)

theorem blockSpec_lt {bs : List Bool} {l o : List UInt8} {rest : List Bool} (h : blockSpec l bs = some (rest, o)) : rest.length < bs.length := by
  rw [blockSpec, Option.bind_eq_some_iff] at h
  obtain ⟨⟨a, bs1⟩, h1, h2⟩ := h
  rw [Option.bind_eq_some_iff] at h2
  obtain ⟨⟨t, bs2⟩, h3, h4⟩ := h2
  obtain ⟨e0, _, e1⟩ := takeNum_some h1
  have h6 := takeNum_shrinks _ _ _ _ h3
  have h7 := inflateBlock_grows _ _ _ _ _ h4
  rw [e1, List.length_drop] at h6
  simp only at h6 h7
  omega

/-- The bits to come, as many as one likes. -/
theorem exists_bits (z : ZBuf) (n : Nat) : ∃ bs : List Bool, num bs = z.val ∧ (bs.length : Int) % 8 = z.numBits % 8 ∧ n ≤ bs.length := by
  obtain ⟨L, hL⟩ : ∃ L : Nat, L = (z.numBits % 8).toNat + 8 * (z.val + n) := ⟨_, rfl⟩
  refine ⟨low z.val L, low_num ?_, ?_, ?_⟩
  · exact lt_of_lt_of_le Nat.lt_two_pow_self (Nat.pow_le_pow_right (by norm_num) (by omega))
  · rw [low_length]
    omega
  · rw [low_length]
    omega

/-- All blocks. -/
theorem blocks_ok {s : ZState} {l : List UInt8} {fuel : Nat} (hl : Shape s.zl) (hd : Shape s.zd) (hz : WF s.z) (ho : OutIs s.z l) (hf : s.z.val.size < fuel) :
    Ok (whileFuel fuel ((.more, s) : Ctl × ZState) fun t => do
      let (c, s) ← blockStep t.2
      pure ((c, s), decide (c ≠ .more)))
    (fun t => OutPost (fun bs => inflateAll (bs.length + 1) bs l) s.z (decide (t.1 = .done), t.2.z)) := by
  refine whileFuel_ok (fun t => Shape t.2.zl ∧ Shape t.2.zd ∧ ∃ n m k, k ≤ n ∧ Go n s.z t.2.z ∧ OutIs t.2.z m ∧
      (∀ bs : List Bool, num bs = s.z.val → (bs.length : Int) % 8 = s.z.numBits % 8 → n ≤ bs.length → ∀ f,
        inflateAll (f + k) bs l = inflateAll f (bs.drop n) m) ∧
      (∀ bs : List Bool, num bs = s.z.val → (bs.length : Int) % 8 = s.z.numBits % 8 → ∀ f r, inflateAll f bs l = some r →
        n ≤ bs.length ∧ ∃ g, inflateAll g (bs.drop n) m = some r))
    (fun t => t.2.z.val.size) _ ⟨hl, hd, 0, l, 0, le_rfl, Go.refl hz, ho, fun bs _ _ _ f => rfl, fun bs _ _ f r h => ⟨Nat.zero_le _, f, h⟩⟩
    hf ?_
  rintro ⟨c0, t⟩ ⟨hl', hd', n, m, k, hk, hg, hom, h1, h2⟩
  simp only at hl' hd' hg hom ⊢
  have hval : ∀ bs, num bs = s.z.val → num (bs.drop n) = t.z.val := fun bs hb => by rw [num_drop, hb, hg.val]
  have hmod : ∀ bs : List Bool, n ≤ bs.length → (bs.length : Int) % 8 = s.z.numBits % 8 → ((bs.drop n).length : Int) % 8 = t.z.numBits % 8 := by
    intro bs hn h8
    have := hg.mod
    rw [List.length_drop]
    omega
  refine Ok.bind (blockStep_ok hl' hd' hg.wf hom) ?_
  rintro ⟨c, t'⟩ ⟨hl2, hd2, hp, hc⟩
  refine Ok.pure' ?_
  simp only at hl2 hd2 hp hc ⊢
  rw [OutPost] at hp
  cases c with
  | fail =>
    rw [if_pos (by simp), OutPost, if_neg (by simp)]
    rw [if_neg (by simp)] at hp
    intro bs cap hb hbl hhit hcap rest o hi h32 hoc
    have hb8 : (bs.length : Int) % 8 = s.z.numBits % 8 := by
      rw [hbl, ZBuf.left]
      have := hz.nonneg
      push_cast
      omega
    obtain ⟨h3, g, h4⟩ := h2 bs hb hb8 _ _ hi
    cases g with
    | zero => cases h4
    | succ g =>
      rw [inflateAll_succ, Option.bind_eq_some_iff] at h4
      obtain ⟨⟨bs1, o1⟩, h5, h6⟩ := h4
      have h7 : rest.length ≤ bs1.length ∧ o1.length ≤ o.length := by
        simp only at h6
        split_ifs at h6
        · cases h6
          exact ⟨le_rfl, le_rfl⟩
        · exact inflateAll_grows g _ _ _ _ h6
      have h8 := (blockSpec_grows _ _ _ _ h5).1
      rw [List.length_drop] at h8
      obtain ⟨h9, h10⟩ := hg.left (by omega)
      refine hp (bs.drop n) cap (hval bs hb) (by rw [List.length_drop]; omega) (h10.trans hhit) ?_ bs1 o1 h5 (by omega) (by omega)
      rcases hcap with h | ⟨h, h'⟩
      · exact Or.inl (le_trans h hg.cap)
      · exact Or.inr ⟨fun j => by rw [hg.grows]; exact h j, h'⟩
  | done =>
    rw [if_pos (by simp), OutPost, if_pos (by simp)]
    rw [if_pos (by simp)] at hp
    obtain ⟨n', m', hg', hom', h3, h4⟩ := hp
    have hodd : t.z.val % 2 = 1 := by
      have := hc (by simp)
      by_contra h
      rw [if_neg h] at this
      cases this
    refine ⟨n + n', m', hg.trans hg', hom', fun bs hb h8 hn => ?_, fun bs p hb h8 hp => ?_⟩
    · rw [show bs.length + 1 = (bs.length - k + 1) + k by omega, h1 bs hb h8 (by omega), inflateAll_succ,
        h3 _ (hval bs hb) (hmod bs (by omega) h8) (by rw [List.length_drop]; omega), Option.bind_some, hval bs hb, if_pos hodd, List.drop_drop]
    · obtain ⟨h5, g, h6⟩ := h2 bs hb h8 _ _ hp
      cases g with
      | zero => cases h6
      | succ g =>
        rw [inflateAll_succ, Option.bind_eq_some_iff] at h6
        obtain ⟨q, h7, _⟩ := h6
        have := h4 _ q (hval bs hb) (hmod bs h5 h8) h7
        rw [List.length_drop] at this
        omega
  | more =>
    rw [if_neg (by simp)]
    rw [if_pos (by simp)] at hp
    obtain ⟨n', m', hg', hom', h3, h4⟩ := hp
    have heven : ¬ t.z.val % 2 = 1 := by
      have := hc (by simp)
      intro h
      rw [if_pos h] at this
      cases this
    obtain ⟨w, hw1, hw2, hw3⟩ := exists_bits t.z n'
    have hw := h3 w hw1 hw2 hw3
    have hn0 : 0 < n' := by
      have := blockSpec_lt hw
      rw [List.length_drop] at this
      omega
    have hv0 : t.z.val ≠ 0 := by
      intro h0
      rw [blockSpec_zero (by rw [hw1, h0])] at hw
      cases hw
    refine ⟨⟨hl2, hd2, n + n', m', k + 1, by omega, hg.trans hg', hom', fun bs hb h8 hn f => ?_, fun bs hb h8 f r hr => ?_⟩, ?_⟩
    · rw [show f + (k + 1) = (f + 1) + k by omega, h1 bs hb h8 (by omega), inflateAll_succ,
        h3 _ (hval bs hb) (hmod bs (by omega) h8) (by rw [List.length_drop]; omega), Option.bind_some, hval bs hb, if_neg heven, List.drop_drop]
    · obtain ⟨h5, g, h6⟩ := h2 bs hb h8 _ _ hr
      cases g with
      | zero => cases h6
      | succ g =>
        rw [inflateAll_succ, Option.bind_eq_some_iff] at h6
        obtain ⟨q, h7, h9⟩ := h6
        have h10 := h4 _ q (hval bs hb) (hmod bs h5 h8) h7
        rw [h3 _ (hval bs hb) (hmod bs h5 h8) h10] at h7
        cases h7
        simp only at h9
        rw [hval bs hb, if_neg heven, List.drop_drop] at h9
        rw [List.length_drop] at h10
        exact ⟨by omega, g, h9⟩
    · show t'.z.val.size < t.z.val.size
      rw [hg'.val]
      exact size_div hv0 hn0

/-- Everything about a stream without header. -/
def StreamPost (body : List UInt8) (initial : Nat) (grows : Nat → Bool) (r : Bool × ZBuf) : Prop :=
  if r.1 then ∃ o n, (r.2.out.take r.2.zout = o.map some ∧ r.2.zout = o.length) ∧
    (∀ bs : List Bool, num bs = num (bitsOf body) → bs.length % 8 = 0 → n ≤ bs.length → inflateAll (bs.length + 1) bs [] = some (bs.drop n, o)) ∧
    (∀ (bs : List Bool) p, num bs = num (bitsOf body) → bs.length % 8 = 0 → inflateAll (bs.length + 1) bs [] = some p → n ≤ bs.length)
  else ∀ rest o, inflateAll ((bitsOf body).length + 1) (bitsOf body) [] = some (rest, o) → 32 ≤ rest.length →
    (o.length ≤ initial ∨ ((∀ k, grows k = true) ∧ o.length ≤ 2147483648)) → False

theorem stream_ok {data : List UInt8} {pos initial fuel : Nat} (hp : pos ≤ data.length) (h0 : 0 < initial) (hi : initial < 4294967296)
    (grows : Nat → Bool) (hf : 8 * data.length + 1 < fuel) :
    Ok (do
      let (c, s) ← whileFuel fuel ((.more, ⟨⟨data, pos, 0, false, 0, List.replicate initial none, 0, grows, 0⟩, ZHuff.fresh, ZHuff.fresh⟩) : Ctl × ZState) fun t => do
        let (c, s) ← blockStep t.2
        pure ((c, s), decide (c ≠ .more))
      pure (decide (c = .done), s.z)) (StreamPost (data.drop pos) initial grows) := by
  have hv : (⟨data, pos, 0, false, 0, List.replicate initial none, 0, grows, 0⟩ : ZBuf).val = num (bitsOf (data.drop pos)) := by
    simp [ZBuf.val]
  have hw : WF ⟨data, pos, 0, false, 0, List.replicate initial none, 0, grows, 0⟩ := ⟨hp, le_rfl, by norm_num, by norm_num⟩
  have hout : OutIs ⟨data, pos, 0, false, 0, List.replicate initial none, 0, grows, 0⟩ [] := by
    refine ⟨?_, rfl, ?_, ?_, ?_⟩
    · simp [outCells]
    · simp
    · simpa using h0
    · simpa using hi
  have hleft : (⟨data, pos, 0, false, 0, List.replicate initial none, 0, grows, 0⟩ : ZBuf).left = (bitsOf (data.drop pos)).length := by
    simp [ZBuf.left]
  refine Ok.bind (blocks_ok (s := ⟨⟨data, pos, 0, false, 0, List.replicate initial none, 0, grows, 0⟩, ZHuff.fresh, ZHuff.fresh⟩) Shape.fresh Shape.fresh
    hw hout ?_) ?_
  · rw [hv]
    refine lt_of_le_of_lt (Nat.size_le.2 (num_lt _)) ?_
    rw [bitsOf_length, List.length_drop]
    omega
  · rintro ⟨c, s⟩ h
    refine Ok.pure' ?_
    simp only at h ⊢
    rw [OutPost, hv] at h
    rw [StreamPost]
    split_ifs at h ⊢ with hc
    · obtain ⟨n, o, _, h1, h2, h3⟩ := h
      refine ⟨o, n, ⟨?_, h1.zout⟩, fun bs hb h8 => h2 bs hb (by simp only; omega), fun bs p hb h8 => h3 bs p hb (by simp only; omega)⟩
      simp only at h1 ⊢
      rw [h1.out, h1.zout, outCells, List.take_left' (by simp)]
    · intro rest o hr h32 hcap
      refine h (bitsOf (data.drop pos)) o.length rfl hleft.symm rfl ?_ rest o hr h32 le_rfl
      rw [CanHold]
      simpa using hcap

theorem header_ok {data : List UInt8} {initial : Nat} {grows : Nat → Bool} :
    Ok (parse_zlib_header ⟨data, 0, 0, false, 0, List.replicate initial none, 0, grows, 0⟩) (fun r =>
      r.2 = ⟨data, min 2 data.length, 0, false, 0, List.replicate initial none, 0, grows, 0⟩ ∧
      (r.1 = true ↔ ∃ cmf flg body, data = cmf :: flg :: body ∧ body ≠ [] ∧ cmf.toNat % 16 = 8 ∧ (cmf.toNat * 256 + flg.toNat) % 31 = 0 ∧
        flg.toNat.testBit 5 = false)) := by
  rw [parse_zlib_header]
  match data with
  | [] =>
    rw [zget8_eof (by simp), ok_bind]
    simp only
    rw [zget8_eof (by simp), ok_bind]
    refine Ok.pure' ⟨rfl, ?_⟩
    simp [ZBuf.eof]
  | [a] =>
    rw [zget8_ok (by simp), ok_bind]
    simp only
    rw [zget8_eof (by simp), ok_bind]
    refine Ok.pure' ⟨rfl, ?_⟩
    simp [ZBuf.eof]
  | a :: b :: body =>
    rw [zget8_ok (by simp), ok_bind]
    simp only
    rw [zget8_ok (by simp), ok_bind]
    refine Ok.pure' ⟨?_, ?_⟩
    · simp
    · simp only [ZBuf.eof]
      constructor
      · intro h
        simp only [Bool.and_eq_true, Bool.not_eq_true', decide_eq_true_eq, decide_eq_false_iff_not, List.length_cons] at h
        obtain ⟨⟨⟨h1, h2⟩, h3⟩, h4⟩ := h
        refine ⟨a, b, body, rfl, ?_, h4, h2, h3⟩
        rintro rfl
        simp at h1
      · rintro ⟨cmf, flg, body', he, hne, h1, h2, h3⟩
        cases he
        simp only [Bool.and_eq_true, Bool.not_eq_true', decide_eq_true_eq, decide_eq_false_iff_not, List.length_cons]
        refine ⟨⟨⟨?_, h2⟩, h3⟩, h1⟩
        have := List.length_pos_of_ne_nil hne
        omega

/-- The header of the stream is as it must be. -/
def HeaderOk (data : List UInt8) : Prop :=
  ∃ cmf flg body, data = cmf :: flg :: body ∧ body ≠ [] ∧ cmf.toNat % 16 = 8 ∧ (cmf.toNat * 256 + flg.toNat) % 31 = 0 ∧ flg.toNat.testBit 5 = false

theorem zlib_ok {data : List UInt8} {initial : Nat} (h0 : 0 < initial) (hi : initial < 4294967296) (grows : Nat → Bool) :
    Ok (zlib_decode data initial grows true) (fun r =>
      (HeaderOk data → StreamPost (data.drop 2) initial grows r) ∧ (¬ HeaderOk data → r.1 = false)) := by
  rw [zlib_decode, parse_zlib, if_pos rfl]
  refine Ok.bind header_ok ?_
  rintro ⟨ok, z⟩ ⟨hz, hok⟩
  simp only at hz hok ⊢
  cases ok with
  | false =>
    rw [if_neg (by simp)]
    exact Ok.pure' ⟨fun h => absurd (hok.2 h) (by simp), fun _ => rfl⟩
  | true =>
    rw [if_pos rfl]
    have h := hok.1 rfl
    have hlen : 2 ≤ data.length := by
      obtain ⟨_, _, _, rfl, _⟩ := h
      simp
    rw [hz, Nat.min_eq_left hlen]
    refine (stream_ok (fuel := 8 * data.length + 2) hlen h0 hi grows (by omega)).mono ?_
    exact fun r hr => ⟨fun _ => hr, fun hn => absurd h hn⟩

theorem raw_ok {data : List UInt8} {initial : Nat} (h0 : 0 < initial) (hi : initial < 4294967296) (grows : Nat → Bool) :
    Ok (zlib_decode data initial grows false) (StreamPost data initial grows) := by
  rw [zlib_decode, parse_zlib, if_neg (by simp)]
  exact stream_ok (fuel := 8 * data.length + 2) (Nat.zero_le _) h0 hi grows (Nat.lt_succ_self _)

end FlatCV
