/-
What any call that returns has done to the heap.
-/
import Verif.Lemmas.Track
import Verif.Lemmas.HPart
import Verif.Lemmas.CliParse
import Verif.Spec.Heap
import Verif.Model.Foerstner

namespace FlatCV
open Model Spec

/-- `Track`, with a flag that is set as long as no allocation has failed. -/
structure TK (hp h : Heap) (X : List Nat) (c : Bool) : Prop where
  track : Track hp h X
  flag : c = true → NoneFailed hp h
  new : ∀ i ∈ X, hp.next ≤ i ∧ i < h.next

theorem TK.start (hp : Heap) : TK hp hp [] true :=
  ⟨Track.start hp, fun _ i h1 h2 => absurd (lt_of_le_of_lt h1 h2) (lt_irrefl _), by simp⟩

theorem TK.effect {α : Type} {hp h : Heap} {b : Buf α} (t : TK hp h [b.id] true) : CallEffect hp h (some b) :=
  ⟨⟨t.1.live, t.1.fails, t.1.next, t.new⟩, t.flag rfl⟩

theorem TK.null {α : Type} {hp h : Heap} {c : Bool} (t : TK hp h [] c) : CallEffect hp h (none : Option (Buf α)) :=
  ⟨t.1.live, t.1.fails, t.1.next, t.new⟩

theorem TK.eff {hp h : Heap} {X : List Nat} {c : Bool} (t : TK hp h X c) : HeapEffect hp h X := ⟨t.1.live, t.1.fails, t.1.next, t.new⟩

theorem TK.effOk {hp h : Heap} {X : List Nat} (t : TK hp h X true) : HeapEffect hp h X ∧ NoneFailed hp h := ⟨t.eff, t.flag rfl⟩

/-- Another call. -/
theorem TK.seqOk {hp h h' : Heap} {X Y : List Nat} {c : Bool} (t : TK hp h X c) (e : HeapEffect h h' Y) (n : NoneFailed h h') :
    TK hp h' (Y ++ X) c := by
  obtain ⟨e1, e2, e3, e4⟩ := e
  refine ⟨⟨?_, e2.trans t.1.fails, le_trans t.1.next e3⟩, fun x i hi hj => ?_, fun i hi => ?_⟩
  · rw [List.append_assoc]
    exact e1.trans (t.1.live.append_left _)
  · by_cases hk : i < h.next
    · exact t.flag x i hi hk
    · rw [← t.1.fails]
      exact n i (Nat.le_of_not_lt hk) hj
  · have := t.1.next
    rcases List.mem_append.1 hi with hi | hi
    · have := e4 i hi
      omega
    · have := t.new i hi
      omega

theorem TK.seq {hp h h' : Heap} {X Y : List Nat} {c : Bool} (t : TK hp h X c) (e : HeapEffect h h' Y) :
    TK hp h' (Y ++ X) false := by
  obtain ⟨e1, e2, e3, e4⟩ := e
  refine ⟨⟨?_, e2.trans t.1.fails, le_trans t.1.next e3⟩, fun x => Bool.noConfusion x, fun i hi => ?_⟩
  · rw [List.append_assoc]
    exact e1.trans (t.1.live.append_left _)
  · have := t.1.next
    rcases List.mem_append.1 hi with hi | hi
    · have := e4 i hi
      omega
    · have := t.new i hi
      omega

theorem _root_.FlatCV.Spec.HeapEffect.tk {hp h : Heap} {X : List Nat} (e : HeapEffect hp h X) : TK hp h X false :=
  ⟨⟨e.1, e.2.1, e.2.2.1⟩, fun x => Bool.noConfusion x, e.2.2.2⟩

theorem _root_.FlatCV.Spec.HeapSafe.pure {α : Type} {a : α} {hp : Heap} {Q : α → Heap → Prop} (h : Q a hp) :
    HeapSafe (Pure.pure a : HM α) hp Q := by
  refine ⟨fun e => (by cases e), fun e => (by cases e), ?_⟩
  intro b h' e
  cases e
  exact h

theorem _root_.FlatCV.Spec.HeapSafe.bind {α β : Type} {m : HM α} {f : α → HM β} {hp : Heap} {P : α → Heap → Prop}
    {Q : β → Heap → Prop} (hm : HeapSafe m hp P) (hf : ∀ a h', P a h' → HeapSafe (f a) h' Q) : HeapSafe (m >>= f) hp Q := by
  unfold HeapSafe
  rw [hm_bind]
  obtain ⟨h1, h2, h3⟩ := hm
  cases hr : m hp with
  | error er =>
    rw [hr] at h1 h2
    refine ⟨fun e => h1 ?_, fun e => h2 ?_, fun _ _ e => by cases e⟩
    all_goals cases e; rfl
  | ok r => exact hf r.1 r.2 (h3 _ _ hr)

section
variable {α β : Type} {hp h : Heap} {X : List Nat} {c : Bool} {Q : β → Heap → Prop}

theorem tk_pure {a : β} (q : Q a h) : HeapSafe (Pure.pure a : HM β) h Q := HeapSafe.pure q

theorem tk_malloc {n : Nat} {f : Option (Buf α) → HM β} (t : TK hp h X c)
    (hn : ∀ h', TK hp h' X false → HeapSafe (f none) h' Q)
    (hs : ∀ h' (b : Buf α), TK hp h' (b.id :: X) c → HeapSafe (f (some b)) h' Q) : HeapSafe (malloc α n >>= f) h Q := by
  refine HeapSafe.bind (P := fun r h' => (r = none ∧ TK hp h' X false) ∨ ∃ b, r = some b ∧ TK hp h' (b.id :: X) c) ?_ ?_
  · refine ⟨fun e => ?_, fun e => ?_, fun r h' e => ?_⟩
    · unfold malloc at e; split_ifs at e
    · unfold malloc at e; split_ifs at e
    unfold malloc at e
    split_ifs at e with hf
    · cases e
      refine Or.inl ⟨rfl, ⟨t.1.live, t.1.fails, Nat.le_succ_of_le t.1.next⟩, fun x => Bool.noConfusion x, fun i hi => ?_⟩
      exact ⟨(t.new i hi).1, Nat.lt_succ_of_lt (t.new i hi).2⟩
    · cases e
      refine Or.inr ⟨_, rfl, ⟨t.1.live.cons _, t.1.fails, Nat.le_succ_of_le t.1.next⟩, fun x i h1 h2 => ?_, fun i hi => ?_⟩
      · rcases Nat.lt_succ_iff_lt_or_eq.1 h2 with h2 | h2
        · exact t.flag x i h1 h2
        · rw [h2, ← t.1.fails]
          exact Bool.eq_false_iff.2 hf
      · rcases List.mem_cons.1 hi with rfl | hi
        · exact ⟨t.1.next, Nat.lt_succ_self _⟩
        · exact ⟨(t.new i hi).1, Nat.lt_succ_of_lt (t.new i hi).2⟩
  · rintro r h' (⟨rfl, t'⟩ | ⟨b, rfl, t'⟩)
    · exact hn h' t'
    · exact hs h' b t'

theorem tk_calloc {n : Nat} {z : α} {f : Option (Buf α) → HM β} (t : TK hp h X c)
    (hn : ∀ h', TK hp h' X false → HeapSafe (f none) h' Q)
    (hs : ∀ h' (b : Buf α), TK hp h' (b.id :: X) c → HeapSafe (f (some b)) h' Q) : HeapSafe (calloc n z >>= f) h Q := by
  refine HeapSafe.bind (P := fun r h' => (r = none ∧ TK hp h' X false) ∨ ∃ b, r = some b ∧ TK hp h' (b.id :: X) c) ?_ ?_
  · refine ⟨fun e => ?_, fun e => ?_, fun r h' e => ?_⟩
    · unfold calloc at e; split_ifs at e
    · unfold calloc at e; split_ifs at e
    unfold calloc at e
    split_ifs at e with hf
    · cases e
      refine Or.inl ⟨rfl, ⟨t.1.live, t.1.fails, Nat.le_succ_of_le t.1.next⟩, fun x => Bool.noConfusion x, fun i hi => ?_⟩
      exact ⟨(t.new i hi).1, Nat.lt_succ_of_lt (t.new i hi).2⟩
    · cases e
      refine Or.inr ⟨_, rfl, ⟨t.1.live.cons _, t.1.fails, Nat.le_succ_of_le t.1.next⟩, fun x i h1 h2 => ?_, fun i hi => ?_⟩
      · rcases Nat.lt_succ_iff_lt_or_eq.1 h2 with h2 | h2
        · exact t.flag x i h1 h2
        · rw [h2, ← t.1.fails]
          exact Bool.eq_false_iff.2 hf
      · rcases List.mem_cons.1 hi with rfl | hi
        · exact ⟨t.1.next, Nat.lt_succ_self _⟩
        · exact ⟨(t.new i hi).1, Nat.lt_succ_of_lt (t.new i hi).2⟩
  · rintro r h' (⟨rfl, t'⟩ | ⟨b, rfl, t'⟩)
    · exact hn h' t'
    · exact hs h' b t'

theorem tk_use {ids : List Nat} {v : CM α} {f : α → HM β} (t : TK hp h X c) (hi : ∀ i ∈ ids, i ∈ X)
    (hs : ∀ v, HeapSafe (f v) h Q) : HeapSafe (use ids v >>= f) h Q := by
  refine HeapSafe.bind (P := fun _ h' => h' = h) ?_ fun v h' e => e ▸ hs v
  unfold HeapSafe use
  rw [if_pos fun i h' => t.1.mem (hi i h')]
  cases v with
  | error e => exact ⟨fun e => (by cases e), fun e => (by cases e), fun _ _ e => by cases e⟩
  | ok a =>
    refine ⟨fun e => (by cases e), fun e => (by cases e), fun _ _ e => ?_⟩
    cases e
    rfl

theorem tk_free {i : Nat} {Y : List Nat} {f : Unit → HM β} (t : TK hp h X c) (p : X.Perm (i :: Y))
    (hs : ∀ h', TK hp h' Y c → HeapSafe (f ()) h' Q) : HeapSafe (free i >>= f) h Q := by
  refine HeapSafe.bind (P := fun _ h' => TK hp h' Y c) ?_ fun _ h' t' => hs h' t'
  obtain ⟨u, hu, e0, -⟩ := t.1.free p
  refine ⟨fun e => (by rw [e0] at e; cases e), fun e => (by rw [e0] at e; cases e), fun r h' e => ?_⟩
  have : h'.next = h.next := by
    unfold free at e
    split_ifs at e
    cases e
    rfl
  refine ⟨(t.1.free p).part r h' e, fun x i h1 h2 => t.flag x i h1 (this ▸ h2), fun j hj => ?_⟩
  rw [this]
  exact t.new j (p.mem_iff.2 (List.mem_cons_of_mem _ hj))

theorem tk_free' {i : Nat} {A Y : List Nat} {f : Unit → HM β}
    (t : TK hp h (A ++ i :: Y) c)
    (hs : ∀ h', TK hp h' (A ++ Y) c → HeapSafe (f ()) h' Q) : HeapSafe (free i >>= f) h Q :=
  tk_free t List.perm_middle hs

theorem tk_free0 {i : Nat} {Y : List Nat} {f : Unit → HM β}
    (t : TK hp h (i :: Y) c)
    (hs : ∀ h', TK hp h' (Y) c → HeapSafe (f ()) h' Q) : HeapSafe (free i >>= f) h Q :=
  tk_free' (A := []) t hs

theorem tk_free1 {i a0 : Nat} {Y : List Nat} {f : Unit → HM β}
    (t : TK hp h (a0 :: i :: Y) c)
    (hs : ∀ h', TK hp h' (a0 :: Y) c → HeapSafe (f ()) h' Q) : HeapSafe (free i >>= f) h Q :=
  tk_free' (A := [a0]) t hs

theorem tk_free2 {i a0 a1 : Nat} {Y : List Nat} {f : Unit → HM β}
    (t : TK hp h (a0 :: a1 :: i :: Y) c)
    (hs : ∀ h', TK hp h' (a0 :: a1 :: Y) c → HeapSafe (f ()) h' Q) : HeapSafe (free i >>= f) h Q :=
  tk_free' (A := [a0, a1]) t hs

theorem tk_free3 {i a0 a1 a2 : Nat} {Y : List Nat} {f : Unit → HM β}
    (t : TK hp h (a0 :: a1 :: a2 :: i :: Y) c)
    (hs : ∀ h', TK hp h' (a0 :: a1 :: a2 :: Y) c → HeapSafe (f ()) h' Q) : HeapSafe (free i >>= f) h Q :=
  tk_free' (A := [a0, a1, a2]) t hs

theorem tk_free4 {i a0 a1 a2 a3 : Nat} {Y : List Nat} {f : Unit → HM β}
    (t : TK hp h (a0 :: a1 :: a2 :: a3 :: i :: Y) c)
    (hs : ∀ h', TK hp h' (a0 :: a1 :: a2 :: a3 :: Y) c → HeapSafe (f ()) h' Q) : HeapSafe (free i >>= f) h Q :=
  tk_free' (A := [a0, a1, a2, a3]) t hs

theorem tk_free5 {i a0 a1 a2 a3 a4 : Nat} {Y : List Nat} {f : Unit → HM β}
    (t : TK hp h (a0 :: a1 :: a2 :: a3 :: a4 :: i :: Y) c)
    (hs : ∀ h', TK hp h' (a0 :: a1 :: a2 :: a3 :: a4 :: Y) c → HeapSafe (f ()) h' Q) : HeapSafe (free i >>= f) h Q :=
  tk_free' (A := [a0, a1, a2, a3, a4]) t hs

theorem tk_free6 {i a0 a1 a2 a3 a4 a5 : Nat} {Y : List Nat} {f : Unit → HM β}
    (t : TK hp h (a0 :: a1 :: a2 :: a3 :: a4 :: a5 :: i :: Y) c)
    (hs : ∀ h', TK hp h' (a0 :: a1 :: a2 :: a3 :: a4 :: a5 :: Y) c → HeapSafe (f ()) h' Q) : HeapSafe (free i >>= f) h Q :=
  tk_free' (A := [a0, a1, a2, a3, a4, a5]) t hs

theorem tk_free7 {i a0 a1 a2 a3 a4 a5 a6 : Nat} {Y : List Nat} {f : Unit → HM β}
    (t : TK hp h (a0 :: a1 :: a2 :: a3 :: a4 :: a5 :: a6 :: i :: Y) c)
    (hs : ∀ h', TK hp h' (a0 :: a1 :: a2 :: a3 :: a4 :: a5 :: a6 :: Y) c → HeapSafe (f ()) h' Q) : HeapSafe (free i >>= f) h Q :=
  tk_free' (A := [a0, a1, a2, a3, a4, a5, a6]) t hs

theorem tk_free8 {i a0 a1 a2 a3 a4 a5 a6 a7 : Nat} {Y : List Nat} {f : Unit → HM β}
    (t : TK hp h (a0 :: a1 :: a2 :: a3 :: a4 :: a5 :: a6 :: a7 :: i :: Y) c)
    (hs : ∀ h', TK hp h' (a0 :: a1 :: a2 :: a3 :: a4 :: a5 :: a6 :: a7 :: Y) c → HeapSafe (f ()) h' Q) : HeapSafe (free i >>= f) h Q :=
  tk_free' (A := [a0, a1, a2, a3, a4, a5, a6, a7]) t hs

theorem tk_free9 {i a0 a1 a2 a3 a4 a5 a6 a7 a8 : Nat} {Y : List Nat} {f : Unit → HM β}
    (t : TK hp h (a0 :: a1 :: a2 :: a3 :: a4 :: a5 :: a6 :: a7 :: a8 :: i :: Y) c)
    (hs : ∀ h', TK hp h' (a0 :: a1 :: a2 :: a3 :: a4 :: a5 :: a6 :: a7 :: a8 :: Y) c → HeapSafe (f ()) h' Q) : HeapSafe (free i >>= f) h Q :=
  tk_free' (A := [a0, a1, a2, a3, a4, a5, a6, a7, a8]) t hs

theorem tk_free10 {i a0 a1 a2 a3 a4 a5 a6 a7 a8 a9 : Nat} {Y : List Nat} {f : Unit → HM β}
    (t : TK hp h (a0 :: a1 :: a2 :: a3 :: a4 :: a5 :: a6 :: a7 :: a8 :: a9 :: i :: Y) c)
    (hs : ∀ h', TK hp h' (a0 :: a1 :: a2 :: a3 :: a4 :: a5 :: a6 :: a7 :: a8 :: a9 :: Y) c → HeapSafe (f ()) h' Q) : HeapSafe (free i >>= f) h Q :=
  tk_free' (A := [a0, a1, a2, a3, a4, a5, a6, a7, a8, a9]) t hs

theorem tk_free11 {i a0 a1 a2 a3 a4 a5 a6 a7 a8 a9 a10 : Nat} {Y : List Nat} {f : Unit → HM β}
    (t : TK hp h (a0 :: a1 :: a2 :: a3 :: a4 :: a5 :: a6 :: a7 :: a8 :: a9 :: a10 :: i :: Y) c)
    (hs : ∀ h', TK hp h' (a0 :: a1 :: a2 :: a3 :: a4 :: a5 :: a6 :: a7 :: a8 :: a9 :: a10 :: Y) c → HeapSafe (f ()) h' Q) : HeapSafe (free i >>= f) h Q :=
  tk_free' (A := [a0, a1, a2, a3, a4, a5, a6, a7, a8, a9, a10]) t hs

/-- A call that returns has freed all it allocated except its result. -/
theorem tk_call {m : HM (Option (Buf α))} {f : Option (Buf α) → HM β} (hm : Tidy m) (t : TK hp h X c)
    (hn : ∀ h', TK hp h' X false → HeapSafe (f none) h' Q)
    (hs : ∀ h' (b : Buf α), TK hp h' (b.id :: X) c → HeapSafe (f (some b)) h' Q) : HeapSafe (m >>= f) h Q := by
  refine HeapSafe.bind (hm h) ?_
  rintro r h' hr
  cases r with
  | none =>
    exact hn h' (t.seq hr)
  | some b =>
    exact hs h' b (t.seqOk hr.1 hr.2)

end

theorem tk_err {β : Type} {h : Heap} {Q : β → Heap → Prop} {e : Fault} : HeapSafe (hfault e : HM β) h Q :=
  ⟨fun e => (by cases e), fun e => (by cases e), fun _ _ e => by cases e⟩

theorem tk_err_bind {α β : Type} {h : Heap} {Q : β → Heap → Prop} {e : Fault} {f : α → HM β} :
    HeapSafe (hfault e >>= f) h Q := HeapSafe.bind (P := fun _ _ => False) tk_err fun _ _ q => q.elim

theorem tk_freeAll_nil {β : Type} {h : Heap} {Q : β → Heap → Prop} {f : Unit → HM β} (hs : HeapSafe (f ()) h Q) :
    HeapSafe (freeAll [] >>= f) h Q := hs

theorem tk_freeAll_none {β : Type} {h : Heap} {Q : β → Heap → Prop} {l : List (Option Nat)} {f : Unit → HM β}
    (hs : HeapSafe (freeAll l >>= f) h Q) : HeapSafe (freeAll (none :: l) >>= f) h Q := hs

theorem tk_freeAll_some {β : Type} {h : Heap} {Q : β → Heap → Prop} {i : Nat} {l : List (Option Nat)} {f : Unit → HM β}
    (hs : HeapSafe (free i >>= fun _ => freeAll l >>= f) h Q) : HeapSafe (freeAll (some i :: l) >>= f) h Q := by
  have : (freeAll (some i :: l) >>= f) = free i >>= fun _ => freeAll l >>= f := by
    simp only [freeAll, hm_assoc]
  rw [this]
  exact hs

theorem tk_callWith {α β γ : Type} {hp h : Heap} {X : List Nat} {c : Bool} {Q : β → Heap → Prop}
    {m : HM (Option (Buf α) × γ)} {f : Option (Buf α) × γ → HM β} (hm : TidyWith m) (t : TK hp h X c)
    (hn : ∀ h' x, TK hp h' X false → HeapSafe (f (none, x)) h' Q)
    (hs : ∀ h' (b : Buf α) x, TK hp h' (b.id :: X) c → HeapSafe (f (some b, x)) h' Q) : HeapSafe (m >>= f) h Q := by
  refine HeapSafe.bind (hm h) ?_
  rintro ⟨r, x⟩ h' hr
  cases r with
  | none =>
    exact hn h' x (t.seq hr)
  | some b =>
    exact hs h' b x (t.seqOk hr.1 hr.2)

theorem tk_pure_bind {α β : Type} {h : Heap} {Q : β → Heap → Prop} {a : α} {f : α → HM β} (hs : HeapSafe (f a) h Q) :
    HeapSafe ((Pure.pure a : HM α) >>= f) h Q := hs

theorem tk_freeOpt_none {α β : Type} {h : Heap} {Q : β → Heap → Prop} {f : Unit → HM β} (hs : HeapSafe (f ()) h Q) :
    HeapSafe (freeOpt (none : Option (Buf α)) >>= f) h Q := hs

theorem tk_freeOpt_some {α β : Type} {h : Heap} {Q : β → Heap → Prop} {b : Buf α} {f : Unit → HM β}
    (hs : HeapSafe (free b.id >>= f) h Q) : HeapSafe (freeOpt (some b) >>= f) h Q := hs

theorem callEffect_trans {α : Type} {hp h h' : Heap} {r : Option (Buf α)} (t : TK hp h [] true) (e : CallEffect h h' r) :
    CallEffect hp h' r := by
  cases r with
  | none =>
    exact (t.seq e).null
  | some b => exact (t.seqOk e.1 e.2).effect

theorem tk_tail {α : Type} {hp h : Heap} {m : HM (Option (Buf α))} (hm : Tidy m) (t : TK hp h [] true) :
    HeapSafe m h fun r h' => CallEffect hp h' r := 
  ⟨(hm h).1, (hm h).2.1, fun r h' e => callEffect_trans t ((hm h).2.2 r h' e)⟩

theorem tk_tailWith {α β : Type} {hp h : Heap} {m : HM (Option (Buf α) × β)} (hm : TidyWith m) (t : TK hp h [] true) :
    HeapSafe m h fun r h' => CallEffect hp h' r.1 := 
  ⟨(hm h).1, (hm h).2.1, fun r h' e => callEffect_trans t ((hm h).2.2 r h' e)⟩

theorem hm_bind_pure {α : Type} (m : HM α) : (m >>= fun a => (Pure.pure a : HM α)) = m := by
  funext h
  rw [hm_bind]
  cases m h with
  | error e => rfl
  | ok r => rfl

theorem tk_free_last {hp h : Heap} {i : Nat} {X : List Nat} {c : Bool} (t : TK hp h (i :: X) c) :
    HeapSafe (free i) h fun _ h' => TK hp h' X c := by
  rw [← hm_bind_pure (free i)]
  exact tk_free0 t fun h' t' => tk_pure t'

/-- Facts about callees, one alternative for each. -/
syntax "tidy_lib" : tactic

/-- One step through a function body. -/
macro "tidy_step" : tactic => `(tactic| first
  | (with_reducible refine tk_pure ?_; first | exact TK.effect ‹_› | exact TK.null ‹_›)
  | with_reducible refine tk_pure_bind ?_
  | with_reducible refine tk_freeOpt_none ?_
  | with_reducible refine tk_freeOpt_some ?_
  | with_reducible exact tk_err
  | with_reducible exact tk_err_bind
  | with_reducible refine tk_freeAll_nil ?_
  | with_reducible_and_instances refine tk_freeAll_none ?_
  | with_reducible refine tk_freeAll_some ?_
  | (with_reducible refine tk_use ‹TK _ _ _ _› (by simp) fun _ => ?_)
  | (with_reducible refine tk_malloc ‹TK _ _ _ _› ?_ ?_ <;> intros <;> try dsimp only)
  | (with_reducible refine tk_calloc ‹TK _ _ _ _› ?_ ?_ <;> intros <;> try dsimp only)
  | (with_reducible refine tk_free0 ‹TK _ _ _ _› ?_; intros)
  | (with_reducible refine tk_free1 ‹TK _ _ _ _› ?_; intros)
  | (with_reducible refine tk_free2 ‹TK _ _ _ _› ?_; intros)
  | (with_reducible refine tk_free3 ‹TK _ _ _ _› ?_; intros)
  | (with_reducible refine tk_free4 ‹TK _ _ _ _› ?_; intros)
  | (with_reducible refine tk_free5 ‹TK _ _ _ _› ?_; intros)
  | (with_reducible refine tk_free6 ‹TK _ _ _ _› ?_; intros)
  | (with_reducible refine tk_free7 ‹TK _ _ _ _› ?_; intros)
  | (with_reducible refine tk_free8 ‹TK _ _ _ _› ?_; intros)
  | (with_reducible refine tk_free9 ‹TK _ _ _ _› ?_; intros)
  | (with_reducible refine tk_free10 ‹TK _ _ _ _› ?_; intros)
  | (with_reducible refine tk_free11 ‹TK _ _ _ _› ?_; intros)
  | (with_reducible refine tk_call (by tidy_lib) ‹TK _ _ _ _› ?_ ?_ <;> intros <;> try dsimp only)
  | (with_reducible refine tk_callWith (by tidy_lib) ‹TK _ _ _ _› ?_ ?_ <;> intros <;> try dsimp only)
  | exact tk_tail (by tidy_lib) ‹TK _ _ _ _›
  | exact tk_tailWith (by tidy_lib) ‹TK _ _ _ _›
  | split
  | dsimp only [Option.map])

macro "tidy_body" : tactic => `(tactic| repeat' tidy_step)

theorem tidy_none {α : Type} : Tidy (Pure.pure none : HM (Option (Buf α))) := by
  intro hp
  exact tk_pure (TK.start hp).null

theorem tidy_allocFill {α : Type} {n : Nat} {fill : Cells α → CM (Cells α)} : Tidy (allocFill n fill) := by
  intro hp
  unfold allocFill
  refine tk_malloc (TK.start hp) ?_ ?_
  · intro h t; exact tk_pure t.null
  · intro h b t
    exact tk_use t (by simp) fun v => tk_pure t.effect

macro_rules | `(tactic| tidy_lib) => `(tactic| exact tidy_allocFill)

theorem tidy_callThenFree {α β : Type} {m : HM (Option (Buf α))} {g : List α → HM (Option (Buf β))} (hm : Tidy m)
    (hg : ∀ d, Tidy (g d)) : Tidy (callThenFree m g) := by
  intro hp
  have := TK.start hp
  unfold callThenFree
  refine tk_call hm this ?_ ?_ <;> intros <;> try dsimp only
  · tidy_body
  · refine tk_use ‹TK _ _ _ _› (by simp) fun d => ?_
    refine tk_call (hg d) ‹TK _ _ _ _› ?_ ?_ <;> intros <;> try dsimp only
    all_goals tidy_body

end FlatCV
