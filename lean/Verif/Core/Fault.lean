/-
Semantics of C used by the model, part 1: outcomes and loops.

A C computation is a value of `CM α = Except Fault α`.  Undefined behaviour, process
termination and non-termination are `Fault`s, so `f … = .ok r` says that none of them
happens.
-/

namespace FlatCV

/-- Everything that can go wrong in a C execution and that the model tracks. -/
inductive Fault where
  /-- read outside a block -/
  | oobRead
  /-- write outside a block -/
  | oobWrite
  /-- read of a byte/element that was never written -/
  | uninitRead
  /-- overflow of a signed integer operation -/
  | signedOverflow
  /-- conversion of a floating-point value that does not fit the integer type -/
  | castRange
  /-- a floating-point operation on finite values with an infinite or NaN result: defined in C,
  but outside the modelled fragment -/
  | fpSpecial
  /-- integer division (or remainder) by zero -/
  | divByZero
  /-- dereference of a null pointer -/
  | nullDeref
  /-- the loop never terminates -/
  | diverge
  /-- the process is terminated (`exit`, `abort`, failed `assert`) -/
  | exit
  deriving DecidableEq, Repr

/-- What can go wrong in a computation that allocates and frees: a fault while working on the contents of blocks, or a
violation of the rules for blocks. -/
inductive HFault where
  | comp (e : Fault)
  /-- `free` of a block that is not live -/
  | badFree
  /-- access to a block that is not live -/
  | useAfterFree
  deriving DecidableEq, Repr

/-- A C computation that touches no heap bookkeeping. -/
abbrev CM (α : Type) := Except Fault α

/-- `Ok m Q`: the computation finishes without any fault and its result satisfies `Q`. -/
def Ok {α : Type} (m : CM α) (Q : α → Prop) : Prop := ∃ r, m = .ok r ∧ Q r

/-- A counted loop `for (i = 0; i < n; i++) s = body(i, s)`. -/
def forN {σ : Type} (n : Nat) (s : σ) (body : Nat → σ → CM σ) : CM σ :=
  match n with
  | 0 => .ok s
  | n + 1 => (forN n s body) >>= fun s' => body n s'

/-- A loop `for (uint32_t i = 0; i < n; i++)` whose bound `n` has type `size_t`: when
`n ≥ 2^32` the counter wraps to 0 before it reaches the bound, so the loop does not end. -/
def forU32 {σ : Type} (n : Nat) (s : σ) (body : Nat → σ → CM σ) : CM σ :=
  if n < 2 ^ 32 then forN n s body
  else forN (2 ^ 32) s body >>= fun _ => .error .diverge

/-- A counted loop with `break`: the body returns the new state and whether to stop. -/
def forBreak {σ : Type} (n : Nat) (i : Nat) (s : σ) (body : Nat → σ → CM (σ × Bool)) : CM σ :=
  match n with
  | 0 => .ok s
  | n + 1 => do
    let (s', stop) ← body i s
    if stop then .ok s' else forBreak n (i + 1) s' body

/-- A `while` loop, unrolled at most `fuel` times; running out of fuel is divergence. -/
def whileFuel {σ : Type} (fuel : Nat) (s : σ) (step : σ → CM (σ × Bool)) : CM σ :=
  match fuel with
  | 0 => .error .diverge
  | fuel + 1 => do
    let (s', stop) ← step s
    if stop then .ok s' else whileFuel fuel s' step

/-! ### Rules -/

theorem Ok.pure {α : Type} {r : α} {Q : α → Prop} (h : Q r) : Ok (.ok r) Q := ⟨r, rfl, h⟩

theorem Ok.pure' {α : Type} {r : α} {Q : α → Prop} (h : Q r) : Ok (Pure.pure r : CM α) Q :=
  ⟨r, rfl, h⟩

theorem Ok.bind {α β : Type} {m : CM α} {f : α → CM β} {P : α → Prop} {Q : β → Prop}
    (hm : Ok m P) (hf : ∀ r, P r → Ok (f r) Q) : Ok (m >>= f) Q := by
  obtain ⟨r, rfl, hr⟩ := hm
  exact hf r hr

theorem Ok.mono {α : Type} {m : CM α} {P Q : α → Prop}
    (hm : Ok m P) (h : ∀ r, P r → Q r) : Ok m Q := by
  obtain ⟨r, rfl, hr⟩ := hm
  exact ⟨r, rfl, h r hr⟩

theorem Ok.eq {α : Type} {m : CM α} {a : α} (h : Ok m (fun r => r = a)) : m = .ok a := by
  obtain ⟨r, rfl, hr⟩ := h
  rw [hr]

theorem Ok.of_eq {α : Type} {m : CM α} {a : α} {Q : α → Prop} (h : m = .ok a) (hq : Q a) :
    Ok m Q := ⟨a, h, hq⟩

theorem Ok.not_error {α : Type} {m : CM α} {Q : α → Prop} {e : Fault}
    (h : Ok m Q) : m ≠ .error e := by
  obtain ⟨r, rfl, _⟩ := h
  intro h
  cases h

@[simp] theorem ok_bind {α β : Type} (a : α) (f : α → CM β) :
    ((Except.ok a : CM α) >>= f) = f a := rfl

@[simp] theorem pure_bind' {α β : Type} (a : α) (f : α → CM β) :
    ((Pure.pure a : CM α) >>= f) = f a := rfl

@[simp] theorem error_bind {α β : Type} (e : Fault) (f : α → CM β) :
    ((Except.error e : CM α) >>= f) = .error e := rfl

/-- Total-correctness rule for counted loops. -/
theorem forN_ok {σ : Type} {n : Nat} {s : σ} {body : Nat → σ → CM σ} (I : Nat → σ → Prop)
    (h0 : I 0 s) (hstep : ∀ i, i < n → ∀ s, I i s → Ok (body i s) (I (i + 1))) :
    Ok (forN n s body) (I n) := by
  induction n with
  | zero => exact Ok.pure h0
  | succ n ih =>
    refine Ok.bind (ih fun i hi => hstep i (by omega)) ?_
    intro r hr
    exact hstep n (by omega) r hr

theorem forU32_eq {σ : Type} {n : Nat} (hn : n < 2 ^ 32) (s : σ) (body : Nat → σ → CM σ) :
    forU32 n s body = forN n s body := by simp [forU32, hn]

/-- Beyond the range of the counter the loop never returns a value. -/
theorem forU32_ne_ok {σ : Type} {n : Nat} (hn : 2 ^ 32 ≤ n) (s : σ) (body : Nat → σ → CM σ)
    (r : σ) : forU32 n s body ≠ .ok r := by
  have : ¬ n < 2 ^ 32 := by omega
  simp only [forU32, this, if_false]
  cases forN (2 ^ 32) s body <;> simp

theorem forN_succ {σ : Type} (n : Nat) (s : σ) (body : Nat → σ → CM σ) :
    forN (n + 1) s body = (forN n s body >>= fun s' => body n s') := rfl

@[simp] theorem forN_zero {σ : Type} (s : σ) (body : Nat → σ → CM σ) :
    forN 0 s body = .ok s := rfl

/-- Loops with pointwise equal bodies are equal. -/
theorem forN_congr {σ : Type} {n : Nat} {s : σ} {b₁ b₂ : Nat → σ → CM σ}
    (h : ∀ i, i < n → ∀ s, b₁ i s = b₂ i s) : forN n s b₁ = forN n s b₂ := by
  induction n with
  | zero => rfl
  | succ n ih =>
    rw [forN_succ, forN_succ, ih fun i hi => h i (by omega)]
    cases forN n s b₂ with
    | error e => rfl
    | ok r => exact h n (by omega) r

/-- Rule for loops with `break`: `I i s` holds before iteration `i`, `S` on a break. -/
theorem forBreak_ok {σ : Type} {n i : Nat} {s : σ} {body : Nat → σ → CM (σ × Bool)}
    (I : Nat → σ → Prop) (S : σ → Prop) (h0 : I i s)
    (hstep : ∀ j, i ≤ j → j < i + n → ∀ s, I j s →
      Ok (body j s) (fun r => if r.2 then S r.1 else I (j + 1) r.1)) :
    Ok (forBreak n i s body) (fun r => S r ∨ I (i + n) r) := by
  induction n generalizing i s with
  | zero => exact Ok.pure (Or.inr h0)
  | succ n ih =>
    refine Ok.bind (hstep i (by omega) (by omega) s h0) ?_
    rintro ⟨s', stop⟩ hr
    cases stop with
    | true => exact Ok.pure (Or.inl (by simpa using hr))
    | false =>
      simp only [Bool.false_eq_true, if_false] at hr ⊢
      have := ih (i := i + 1) (s := s') hr
        (fun j h1 h2 s hs => hstep j (by omega) (by omega) s hs)
      have e : i + (n + 1) = i + 1 + n := by omega
      rw [e]
      exact this

/-- A fault in iteration `i` ends the loop. -/
theorem forN_err {σ : Type} {n i : Nat} {s t : σ} {body : Nat → σ → CM σ} {e : Fault} (hi : i < n)
    (h : forN i s body = .ok t) (hb : body i t = .error e) : forN n s body = .error e := by
  obtain ⟨m, rfl⟩ : ∃ m, n = i + 1 + m := ⟨n - (i + 1), by omega⟩
  induction m with
  | zero => rw [Nat.add_zero, forN_succ, h]; exact hb
  | succ m ih => rw [← Nat.add_assoc, forN_succ, ih (by omega)]; rfl

/-- A fault in the first iteration ends the loop. -/
theorem forN_err0 {σ : Type} {n : Nat} {s : σ} {body : Nat → σ → CM σ} {e : Fault} (hn : 0 < n)
    (hb : body 0 s = .error e) : forN n s body = .error e := forN_err hn rfl hb

theorem forBreak_err0 {σ : Type} {n i : Nat} {s : σ} {body : Nat → σ → CM (σ × Bool)} {e : Fault}
    (hn : 0 < n) (hb : body i s = .error e) : forBreak n i s body = .error e := by
  obtain ⟨m, rfl⟩ : ∃ m, n = m + 1 := ⟨n - 1, by omega⟩
  unfold forBreak
  rw [hb]
  rfl

/-- `Part m Q`: if the computation finishes without fault its result satisfies `Q`. -/
def Part {α : Type} (m : CM α) (Q : α → Prop) : Prop := ∀ r, m = .ok r → Q r

theorem Part.pure {α : Type} {r : α} {Q : α → Prop} (h : Q r) : Part (.ok r) Q := by
  rintro _ ⟨⟩; exact h

theorem Part.pure' {α : Type} {r : α} {Q : α → Prop} (h : Q r) : Part (Pure.pure r : CM α) Q :=
  Part.pure h

theorem Part.error {α : Type} {e : Fault} {Q : α → Prop} : Part (.error e) Q := by
  rintro _ ⟨⟩

theorem Part.bind {α β : Type} {m : CM α} {f : α → CM β} {P : α → Prop} {Q : β → Prop}
    (hm : Part m P) (hf : ∀ r, P r → Part (f r) Q) : Part (m >>= f) Q := by
  cases m with
  | error e => exact Part.error
  | ok a => exact hf a (hm a rfl)

theorem Part.mono {α : Type} {m : CM α} {P Q : α → Prop}
    (hm : Part m P) (h : ∀ r, P r → Q r) : Part m Q := fun r hr => h r (hm r hr)

theorem Part.trivial {α : Type} (m : CM α) : Part m (fun _ => True) := fun _ _ => True.intro

theorem Ok.part {α : Type} {m : CM α} {Q : α → Prop} (h : Ok m Q) : Part m Q := by
  obtain ⟨r, rfl, hq⟩ := h
  exact Part.pure hq

/-- Partial-correctness rule for counted loops. -/
theorem Part.forN {σ : Type} {n : Nat} {s : σ} {body : Nat → σ → CM σ} (I : Nat → σ → Prop)
    (h0 : I 0 s) (hstep : ∀ i, i < n → ∀ s, I i s → Part (body i s) (I (i + 1))) :
    Part (forN n s body) (I n) := by
  induction n with
  | zero => exact Part.pure h0
  | succ n ih =>
    exact Part.bind (ih fun i hi => hstep i (by omega)) fun r hr => hstep n (by omega) r hr

/-- A loop that can neither stop nor leave its invariant never returns. -/
theorem whileFuel_ne_ok {σ : Type} {fuel : Nat} {s : σ} {step : σ → CM (σ × Bool)}
    (I : σ → Prop) (h0 : I s)
    (hstep : ∀ s, I s → Part (step s) (fun r => r.2 = false ∧ I r.1)) (t : σ) :
    whileFuel fuel s step ≠ .ok t := by
  induction fuel generalizing s with
  | zero => intro h; cases h
  | succ n ih =>
    unfold whileFuel
    cases hs : step s with
    | error e => intro h; cases h
    | ok r =>
      obtain ⟨h1, h2⟩ := hstep s h0 r hs
      obtain ⟨s', b⟩ := r
      simp only at h1 h2
      subst h1
      exact ih h2

end FlatCV
