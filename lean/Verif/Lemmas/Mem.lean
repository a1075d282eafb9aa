import Verif.Core.Mem

namespace FlatCV

/-! ### Reading and writing blocks -/

theorem rdIn_ok {α : Type} {d : List α} {i : Nat} {v : α} (h : d[i]? = some v) :
    rdIn d i = .ok v := by simp [rdIn, h]

theorem rdIn_oob {α : Type} {d : List α} {i : Nat} (h : d.length ≤ i) :
    rdIn d i = .error .oobRead := by simp [rdIn, List.getElem?_eq_none h]

theorem rd_ok {α : Type} {s : Cells α} {i : Nat} {v : α} (h : s[i]? = some (some v)) :
    rd s i = .ok v := by simp [rd, h]

theorem wr_ok {α : Type} {s : Cells α} {i : Nat} (h : i < s.length) (v : α) :
    wr s i v = .ok (s.set i (some v)) := by simp [wr, h]

theorem rd_map_some {α : Type} (d : List α) (i : Nat) : rd (d.map some) i = rdIn d i := by
  simp only [rd, rdIn, List.getElem?_map]
  cases d[i]? <;> rfl

theorem wr_map_some {α : Type} {d : List α} {i : Nat} (h : i < d.length) (v : α) :
    wr (d.map some) i v = .ok ((d.set i v).map some) := by
  rw [wr_ok (by simpa using h), List.map_set]

/-! ### Filling a block: the scatter invariant

`Filled out W s`: the block `s` has the length of `out`, and every position in `W` already
holds its final value.  If each write puts the final value at its position and in the end all
positions were written, the block is exactly `out`, with no uninitialised element. -/

def Filled {α : Type} (out : List α) (W : Nat → Prop) (s : Cells α) : Prop :=
  s.length = out.length ∧ ∀ k, k < out.length → W k → s[k]? = some out[k]?

theorem Filled.start {α : Type} (out : List α) :
    Filled out (fun _ => False) (List.replicate out.length none) :=
  ⟨by simp, fun _ _ h => h.elim⟩

theorem Filled.start' {α : Type} (out : List α) {n : Nat} (hn : n = out.length) :
    Filled out (fun _ => False) (List.replicate n none) := by
  subst hn; exact Filled.start out

theorem Filled.wr {α : Type} {out : List α} {W : Nat → Prop} {s : Cells α} {k : Nat} {v : α}
    (hs : Filled out W s) (hv : out[k]? = some v) :
    Ok (wr s k v) (Filled out (fun j => W j ∨ j = k)) := by
  have hk : k < out.length := by
    rcases Nat.lt_or_ge k out.length with h | h
    · exact h
    · rw [List.getElem?_eq_none h] at hv; cases hv
  refine ⟨s.set k (some v), wr_ok (by rw [hs.1]; exact hk) v, by simp [hs.1], ?_⟩
  intro j hj hW
  by_cases h : j = k
  · subst h
    rw [List.getElem?_set_self (by rw [hs.1]; exact hj), hv]
  · rw [List.getElem?_set_ne (fun e => h e.symm)]
    rcases hW with hW | hW
    · exact hs.2 j hj hW
    · exact absurd hW h

theorem Filled.mono {α : Type} {out : List α} {W V : Nat → Prop} {s : Cells α}
    (hs : Filled out W s) (h : ∀ k, k < out.length → V k → W k) : Filled out V s :=
  ⟨hs.1, fun k hk hv => hs.2 k hk (h k hk hv)⟩

theorem Filled.done {α : Type} {out : List α} {W : Nat → Prop} {s : Cells α}
    (hs : Filled out W s) (h : ∀ k, k < out.length → W k) : s = out.map some := by
  apply List.ext_getElem?
  intro k
  by_cases hk : k < out.length
  · rw [hs.2 k hk (h k hk)]
    simp [hk]
  · rw [List.getElem?_eq_none (by rw [hs.1]; omega), List.getElem?_eq_none (by simp; omega)]

/-- One loop filling a block. -/
theorem Filled.loop {α : Type} {out : List α} {W : Nat → Prop} {s : Cells α} {n : Nat}
    {body : Nat → Cells α → CM (Cells α)} (D : Nat → Nat → Prop) (hs : Filled out W s)
    (hb : ∀ i, i < n → ∀ V t, Filled out V t →
      Ok (body i t) (Filled out (fun k => V k ∨ D i k))) :
    Ok (forN n s body) (Filled out (fun k => W k ∨ ∃ i, i < n ∧ D i k)) := by
  refine (forN_ok (fun i t => Filled out (fun k => W k ∨ ∃ j, j < i ∧ D j k) t) ?_ ?_)
  · refine hs.mono ?_
    rintro k _ (h | ⟨j, h, _⟩)
    · exact h
    · omega
  · intro i hi t ht
    refine (hb i hi _ t ht).mono ?_
    intro t' ht'
    refine ht'.mono ?_
    rintro k _ (h | ⟨j, hj, hd⟩)
    · exact Or.inl (Or.inl h)
    · by_cases e : j = i
      · subst e; exact Or.inr hd
      · exact Or.inl (Or.inr ⟨j, by omega, hd⟩)

/-- Two nested loops filling a block. -/
theorem Filled.loop2 {α : Type} {out : List α} {W : Nat → Prop} {s : Cells α} {n m : Nat}
    {body : Nat → Nat → Cells α → CM (Cells α)} (D : Nat → Nat → Nat → Prop)
    (hs : Filled out W s)
    (hb : ∀ i, i < n → ∀ j, j < m → ∀ V t, Filled out V t →
      Ok (body i j t) (Filled out (fun k => V k ∨ D i j k))) :
    Ok (forN n s fun i t => forN m t (body i))
      (Filled out (fun k => W k ∨ ∃ i, i < n ∧ ∃ j, j < m ∧ D i j k)) :=
  Filled.loop (fun i k => ∃ j, j < m ∧ D i j k) hs
    (fun i hi _ _ ht => Filled.loop (D i) ht (hb i hi))

/-- `memcpy` from a constant input. -/
theorem Filled.memcpyIn {α : Type} {out : List α} {W : Nat → Prop} {s : Cells α}
    {src : List α} {di si n : Nat} (hs : Filled out W s)
    (hsi : si + n ≤ src.length) (hv : ∀ k, k < n → out[di + k]? = src[si + k]?) :
    Ok (memcpyIn s di src si n) (Filled out (fun k => W k ∨ ∃ i, i < n ∧ k = di + i)) := by
  refine Filled.loop (fun i k => k = di + i) hs ?_
  intro i hi V t ht
  have hlt : si + i < src.length := by omega
  have e : src[si + i]? = some src[si + i] := List.getElem?_eq_getElem hlt
  rw [rdIn_ok e]
  exact ht.wr (by rw [hv i hi, e])

/-- Copying a whole block. -/
theorem memcpyIn_all {α : Type} (d : List α) {n : Nat} (hn : n = d.length) :
    FlatCV.memcpyIn (List.replicate n none) 0 d 0 n = .ok (d.map some) := by
  subst hn
  refine Ok.eq ((Filled.memcpyIn (Filled.start d) (by omega) (by simp)).mono fun s hs => ?_)
  exact hs.done fun k hk => Or.inr ⟨k, hk, by omega⟩

/-! ### The heap -/

@[simp] theorem hm_pure {α : Type} (a : α) (h : Heap) : (pure a : HM α) h = .ok (a, h) := rfl

theorem hm_bind {α β : Type} (m : HM α) (f : α → HM β) (h : Heap) :
    (m >>= f) h = (match m h with | .error e => .error e | .ok (a, h') => f a h') := rfl

theorem HOk.bind {α β : Type} {m : HM α} {f : α → HM β} {h : Heap}
    {P : α → Heap → Prop} {Q : β → Heap → Prop}
    (hm : HOk m h P) (hf : ∀ a h', P a h' → HOk (f a) h' Q) : HOk (m >>= f) h Q := by
  obtain ⟨a, h', e, hp⟩ := hm
  obtain ⟨b, h'', e', hq⟩ := hf a h' hp
  exact ⟨b, h'', by rw [hm_bind, e]; exact e', hq⟩

theorem HOk.pure {α : Type} {a : α} {h : Heap} {Q : α → Heap → Prop} (hq : Q a h) :
    HOk (Pure.pure a : HM α) h Q := ⟨a, h, rfl, hq⟩

theorem HOk.mono {α : Type} {m : HM α} {h : Heap} {P Q : α → Heap → Prop}
    (hm : HOk m h P) (hpq : ∀ a h', P a h' → Q a h') : HOk m h Q := by
  obtain ⟨a, h', e, hp⟩ := hm
  exact ⟨a, h', e, hpq a h' hp⟩

theorem HOk.of_eq {α : Type} {m : HM α} {h h' : Heap} {a : α} {Q : α → Heap → Prop}
    (e : m h = .ok (a, h')) (hq : Q a h') : HOk m h Q := ⟨a, h', e, hq⟩

theorem HOk.use {α : Type} {ids : List Nat} {c : CM α} {h : Heap} {Q : α → Heap → Prop}
    (hl : ∀ i ∈ ids, i ∈ h.live) (hc : Ok c (fun a => Q a h)) : HOk (use ids c) h Q := by
  obtain ⟨a, e, hq⟩ := hc
  refine ⟨a, h, ?_, hq⟩
  simp only [FlatCV.use, e]
  rw [if_pos hl]

theorem HOk.free {i : Nat} {h : Heap} {Q : Unit → Heap → Prop} (hi : i ∈ h.live)
    (hq : Q () { h with live := h.live.erase i }) : HOk (free i) h Q := by
  refine ⟨(), _, ?_, hq⟩
  simp [FlatCV.free, hi]

/-- The two outcomes of `malloc`. -/
theorem HOk.malloc {α : Type} {n : Nat} {h : Heap} {Q : Option (Buf α) → Heap → Prop}
    (hfail : h.fails h.next = true → Q none { h with next := h.next + 1 })
    (hok : h.fails h.next = false → Q (some ⟨h.next, List.replicate n none⟩)
      { h with next := h.next + 1, live := h.next :: h.live }) :
    HOk (malloc α n) h Q := by
  by_cases hf : h.fails h.next = true
  · exact ⟨none, _, by simp [FlatCV.malloc, hf], hfail hf⟩
  · simp only [Bool.not_eq_true] at hf
    exact ⟨_, _, by simp [FlatCV.malloc, hf], hok hf⟩

theorem HOk.calloc {α : Type} {n : Nat} {z : α} {h : Heap} {Q : Option (Buf α) → Heap → Prop}
    (hfail : h.fails h.next = true → Q none { h with next := h.next + 1 })
    (hok : h.fails h.next = false → Q (some ⟨h.next, List.replicate n (some z)⟩)
      { h with next := h.next + 1, live := h.next :: h.live }) :
    HOk (calloc n z) h Q := by
  by_cases hf : h.fails h.next = true
  · exact ⟨none, _, by simp [FlatCV.calloc, hf], hfail hf⟩
  · simp only [Bool.not_eq_true] at hf
    exact ⟨_, _, by simp [FlatCV.calloc, hf], hok hf⟩

theorem allocFill_returns {α : Type} {n : Nat} {fill : Cells α → CM (Cells α)}
    {Q : Cells α → Prop} (h : Heap)
    (hf : Ok (fill (List.replicate n none)) Q) : Returns (allocFill n fill) h Q := by
  refine HOk.bind (P := fun r h' =>
    (r = none ∧ h.fails h.next = true ∧ h' = { h with next := h.next + 1 }) ∨
    (r = some ⟨h.next, List.replicate n none⟩ ∧
      h' = { h with next := h.next + 1, live := h.next :: h.live })) ?_ ?_
  · exact HOk.malloc (fun hf => Or.inl ⟨rfl, hf, rfl⟩) (fun _ => Or.inr ⟨rfl, rfl⟩)
  · rintro r h' (⟨rfl, hfl, rfl⟩ | ⟨rfl, rfl⟩)
    · exact HOk.pure ⟨rfl, rfl, by simp, h.next, by simp, by simp, hfl⟩
    · refine HOk.bind (P := fun c h' => Q c ∧
        h' = { h with next := h.next + 1, live := h.next :: h.live }) ?_ ?_
      · exact HOk.use (by simp) (hf.mono fun r hr => ⟨hr, rfl⟩)
      · rintro c h' ⟨hq, rfl⟩
        exact HOk.pure ⟨⟨rfl, rfl, by simp, by simp⟩, hq⟩

theorem allocFill_err {α : Type} {n : Nat} {fill : Cells α → CM (Cells α)} {hp : Heap} {e : Fault}
    (hf : hp.fails hp.next = false) (h : fill (List.replicate n none) = .error e) :
    allocFill n fill hp = .error (.comp e) := by
  simp [allocFill, hm_bind, malloc, use, hf, h]

/-- The contents of a returned block come from the fill. -/
theorem allocFill_cells {α : Type} {n : Nat} {fill : Cells α → CM (Cells α)} {hp hp' : Heap}
    {b : Buf α} (e : allocFill n fill hp = .ok (some b, hp')) :
    fill (List.replicate n none) = .ok b.cells := by
  by_cases hf : hp.fails hp.next = true
  · simp [allocFill, hm_bind, malloc, hf] at e
  · cases hc : fill (List.replicate n none) with
    | error e' => simp [allocFill, hm_bind, malloc, use, hf, hc, Except.map] at e
    | ok c =>
      simp [allocFill, hm_bind, malloc, use, hf, hc, Except.map] at e
      rw [← e.1]

theorem asInput_map_some {α : Type} (l : List α) : asInput (l.map some) = .ok l := by
  have : (l.map some).mapM id = some l := by
    induction l with
    | nil => rfl
    | cons a l ih => simp only [List.map_cons, List.mapM_cons, ih]; rfl
  simp [asInput, this]

theorem memset_all {α : Type} (s : Cells α) (v : α) :
    memset s s.length v = .ok (List.replicate s.length (some v)) := by
  simp [memset]

theorem callThenFree_returns {α β : Type} {f : HM (Option (Buf α))}
    {g : List α → HM (Option (Buf β))} {e : List α} {Q : Cells β → Prop} (hp : Heap)
    (hf : Returns f hp (fun c => c = e.map some)) (hg : ∀ h, Returns (g e) h Q) :
    Returns (callThenFree f g) hp Q := by
  refine HOk.bind hf ?_
  intro r h1 hr
  cases r with
  | none => exact HOk.pure hr
  | some b =>
    obtain ⟨⟨hl, hfl, hn, hb⟩, hc⟩ := hr
    have hin : HOk (use [b.id] (asInput b.cells)) h1 (fun i h' => i = e ∧ h' = h1) := by
      refine HOk.use (by simp [hl]) ?_
      rw [hc, asInput_map_some]
      exact Ok.pure ⟨rfl, rfl⟩
    refine HOk.bind hin ?_
    rintro i h' ⟨rfl, rfl⟩
    refine HOk.bind (hg h') ?_
    intro r2 h2 hr2
    cases r2 with
    | none =>
      obtain ⟨hl2, hfl2, hn2, j, hj1, hj2, hj3⟩ := hr2
      refine HOk.bind (P := fun _ h3 => h3 = { h2 with live := h2.live.erase b.id })
        (HOk.free (by rw [hl2, hl]; simp) rfl) ?_
      rintro _ _ rfl
      refine HOk.pure ⟨?_, ?_, ?_, j, ?_, hj2, ?_⟩
      · simp [hl2, hl]
      · simp [hfl2, hfl]
      · simp only; omega
      · omega
      · rw [← hfl]; exact hj3
    | some b2 =>
      obtain ⟨⟨hl2, hfl2, hn2, hb2⟩, hq⟩ := hr2
      have hne : b2.id ≠ b.id := by omega
      refine HOk.bind (P := fun _ h3 => h3 = { h2 with live := h2.live.erase b.id })
        (HOk.free (by rw [hl2, hl]; simp) rfl) ?_
      rintro _ _ rfl
      refine HOk.pure ⟨⟨?_, ?_, ?_, ?_⟩, hq⟩
      · simp [hl2, hl, hne]
      · simp [hfl2, hfl]
      · omega
      · exact hb2

/-! ### Marking pixels

`Marked n v0 v1 S s`: the block has `n` elements, those in `S` hold `v1`, the others `v0`. -/

def Marked {α : Type} (n : Nat) (v0 v1 : α) (S : Nat → Prop) (s : Cells α) : Prop :=
  s.length = n ∧ ∀ k, k < n → (S k → s[k]? = some (some v1)) ∧ (¬ S k → s[k]? = some (some v0))

theorem Marked.start {α : Type} (n : Nat) (v0 v1 : α) :
    Marked n v0 v1 (fun _ => False) (List.replicate n (some v0)) :=
  ⟨by simp, fun k hk => ⟨fun h => h.elim, fun _ => by simp [hk]⟩⟩

theorem Marked.congr {α : Type} {n : Nat} {v0 v1 : α} {S T : Nat → Prop} {s : Cells α}
    (hs : Marked n v0 v1 S s) (h : ∀ k, k < n → (S k ↔ T k)) : Marked n v0 v1 T s :=
  ⟨hs.1, fun k hk => by rw [← h k hk]; exact hs.2 k hk⟩

theorem Marked.wr {α : Type} {n : Nat} {v0 v1 : α} {S : Nat → Prop} {s : Cells α} {k : Nat}
    (hs : Marked n v0 v1 S s) (hk : k < n) :
    Ok (wr s k v1) (Marked n v0 v1 (fun j => S j ∨ j = k)) := by
  refine Ok.of_eq (wr_ok (by rw [hs.1]; exact hk) v1) ⟨by simp [hs.1], fun j hj => ?_⟩
  rw [List.getElem?_set]
  by_cases e : k = j
  · subst e
    simp [hs.1, hj]
  · have e' : ¬ j = k := fun h => e h.symm
    simp only [e, e', if_false, or_false]
    exact hs.2 j hj

theorem Marked.loop {α : Type} {n m : Nat} {v0 v1 : α} {S : Nat → Prop} {s : Cells α}
    {body : Nat → Cells α → CM (Cells α)} (D : Nat → Nat → Prop) (hs : Marked n v0 v1 S s)
    (hb : ∀ i, i < m → ∀ T t, Marked n v0 v1 T t →
      Ok (body i t) (Marked n v0 v1 (fun k => T k ∨ D i k))) :
    Ok (forN m s body) (Marked n v0 v1 (fun k => S k ∨ ∃ i, i < m ∧ D i k)) := by
  refine forN_ok (fun i t => Marked n v0 v1 (fun k => S k ∨ ∃ j, j < i ∧ D j k) t) ?_ ?_
  · refine hs.congr fun k _ => ⟨Or.inl, ?_⟩
    rintro (h | ⟨j, h, _⟩)
    · exact h
    · omega
  · intro i hi t ht
    refine (hb i hi _ t ht).mono fun t' ht' => ht'.congr fun k _ => ⟨?_, ?_⟩
    · rintro ((h | ⟨j, hj, hd⟩) | h)
      · exact Or.inl h
      · exact Or.inr ⟨j, by omega, hd⟩
      · exact Or.inr ⟨i, by omega, h⟩
    · rintro (h | ⟨j, hj, hd⟩)
      · exact Or.inl (Or.inl h)
      · by_cases e : j = i
        · subst e; exact Or.inr hd
        · exact Or.inl (Or.inr ⟨j, by omega, hd⟩)

/-- A marked block is the image with `v1` exactly on `S`. -/
theorem Marked.done {α : Type} {n : Nat} {v0 v1 : α} {S : Nat → Prop} {s : Cells α}
    (hs : Marked n v0 v1 S s) {out : List α} (hl : out.length = n)
    (h : ∀ k, k < n → (S k → out[k]? = some v1) ∧ (¬ S k → out[k]? = some v0)) :
    s = out.map some := by
  apply List.ext_getElem?
  intro k
  by_cases hk : k < n
  · rw [List.getElem?_map]
    by_cases hS : S k
    · rw [(hs.2 k hk).1 hS, (h k hk).1 hS]; rfl
    · rw [(hs.2 k hk).2 hS, (h k hk).2 hS]; rfl
  · rw [List.getElem?_eq_none (by rw [hs.1]; omega), List.getElem?_eq_none (by simp; omega)]

end FlatCV
