/-
C67, C106: the whole program on the heap.
-/
import Verif.Props.CliHeap
import Verif.Props.CliParse

namespace FlatCV.Props
open Model Spec

section
variable {α β : Type} {hp hh : Heap} {X : List Nat} {c : Bool}

/-- The blocks of a list of operations. -/
def pipeBlocks (p : Pipeline) : List Nat := p.opsId.toList ++ [p.pid]

theorem _root_.FlatCV.TK.perm {Y : List Nat} (t : TK hp hh X c) (p : X.Perm Y) : TK hp hh Y c :=
  ⟨t.1.perm p, t.flag, fun i hi => t.new i (p.mem_iff.2 hi)⟩

theorem _root_.FlatCV.TK.wf (t : TK hp hh X c) (hw : hp.WF) : hh.WF := by
  intro i hi
  rcases List.mem_append.1 (t.1.live.mem_iff.1 hi) with h | h
  · exact (t.new i h).2
  · exact lt_of_lt_of_le (hw i h) t.1.next

theorem HeapSafe.also {m : HM α} {hp : Heap} {Q R : α → Heap → Prop} (h : HeapSafe m hp Q) (h2 : HPart m hp R) :
    HeapSafe m hp fun a h' => Q a h' ∧ R a h' := ⟨h.1, h.2.1, fun a h' e => ⟨h.2.2 a h' e, h2 a h' e⟩⟩

theorem HeapSafe.mono {m : HM α} {hp : Heap} {Q R : α → Heap → Prop} (h : HeapSafe m hp Q) (h2 : ∀ a h', Q a h' → R a h') :
    HeapSafe m hp R := ⟨h.1, h.2.1, fun a h' e => h2 a h' (h.2.2 a h' e)⟩

theorem tk_mallocCells {n : Nat} {f : Option (Buf α) → HM β} {Q : β → Heap → Prop} (t : TK hp hh X c)
    (hn : ∀ h', TK hp h' X false → HeapSafe (f none) h' Q)
    (hs : ∀ h' i, TK hp h' (i :: X) c → HeapSafe (f (some ⟨i, List.replicate n none⟩)) h' Q) : HeapSafe (malloc α n >>= f) hh Q := by
  refine HeapSafe.bind (P := fun r h' => (r = none ∧ TK hp h' X false) ∨ ∃ i, r = some ⟨i, List.replicate n none⟩ ∧ TK hp h' (i :: X) c) ?_ ?_
  · have h1 : HeapSafe (malloc α n) hh fun r h' => (r = none ∧ TK hp h' X false) ∨ ∃ b, r = some b ∧ TK hp h' (b.id :: X) c := by
      rw [← hm_bind_pure (malloc α n)]
      exact tk_malloc t (fun h' t' => tk_pure (Or.inl ⟨rfl, t'⟩)) fun h' b t' => tk_pure (Or.inr ⟨b, rfl, t'⟩)
    have h2 : HPart (malloc α n) hh fun r _ => ∀ b, r = some b → b.cells = List.replicate n none := by
      intro r h' e b hb
      unfold malloc at e
      split_ifs at e
      · cases e
        cases hb
      · cases e
        cases hb
        rfl
    refine HeapSafe.mono (HeapSafe.also h1 h2) ?_
    rintro r h' ⟨h | ⟨b, rfl, t'⟩, hb⟩
    · exact Or.inl h
    · exact Or.inr ⟨b.id, by rw [← hb b rfl], t'⟩
  · rintro r h' (⟨rfl, t'⟩ | ⟨i, rfl, t'⟩)
    · exact hn h' t'
    · exact hs h' i t'

theorem tk_useVal {ids : List Nat} {v : CM α} {a : α} {f : α → HM β} {Q : β → Heap → Prop} (t : TK hp hh X c)
    (hi : ∀ i ∈ ids, i ∈ X) (hv : v = .ok a) (hs : HeapSafe (f a) hh Q) : HeapSafe (use ids v >>= f) hh Q := by
  refine HeapSafe.bind (P := fun b h' => b = a ∧ h' = hh) ?_ fun b h' e => by obtain ⟨rfl, rfl⟩ := e; exact hs
  rw [hv]
  unfold HeapSafe use
  rw [if_pos fun i h' => t.1.mem (hi i h')]
  refine ⟨fun e => (by cases e), fun e => (by cases e), fun _ _ e => ?_⟩
  cases e
  exact ⟨rfl, rfl⟩

/-! ### The parser -/

theorem create_pipeline_track (t : TK hp hh X c) :
    HeapSafe create_pipeline hh fun p h' => p.ops = [] ∧ ∃ c', TK hp h' (pipeBlocks p ++ X) c' := by
  unfold create_pipeline
  refine tk_malloc t ?_ ?_
  · intro h' _
    exact tk_err
  · intro h1 b t1
    refine tk_malloc t1 ?_ ?_
    · intro h2 t2
      exact tk_pure ⟨rfl, _, t2⟩
    · intro h2 b2 t2
      exact tk_pure ⟨rfl, _, t2⟩

theorem free_pipeline_track {p : Pipeline} (t : TK hp hh (pipeBlocks p ++ X) c) {f : Unit → HM β} {Q : β → Heap → Prop}
    (hs : ∀ h', TK hp h' X c → HeapSafe (f ()) h' Q) : HeapSafe (free_pipeline p >>= f) hh Q := by
  obtain ⟨pid, opsId, cap, ops⟩ := p
  unfold free_pipeline
  rw [hm_assoc]
  refine tk_use t (by simp [pipeBlocks]) fun _ => ?_
  rw [hm_assoc]
  cases opsId with
  | none => exact tk_free0 t hs
  | some i => exact tk_free0 t fun h' t' => tk_free0 t' hs

theorem add_operation_track {P : Plat} {p : Pipeline} {o : PipelineOp} (t : TK hp hh (pipeBlocks p ++ X) c) :
    HeapSafe (add_operation P p o) hh fun q h' => q.ops = p.ops ++ [stored o] ∧ ∃ c', TK hp h' (pipeBlocks q ++ X) c' := by
  obtain ⟨pid, opsId, cap, ops⟩ := p
  have touch : ∀ (q : Pipeline) (hh : Heap) (c : Bool), q.pid = pid → q.ops = ops → TK hp hh (pipeBlocks q ++ X) c →
      HeapSafe (touchOps q >>= fun _ => (Pure.pure { q with ops := q.ops ++ [stored o] } : HM Pipeline)) hh fun q h' =>
        q.ops = ops ++ [stored o] ∧ ∃ c', TK hp h' (pipeBlocks q ++ X) c' := by
    intro q hh c e1 e2 t
    unfold touchOps
    obtain ⟨qpid, qops, qcap, ops⟩ := q
    cases qops with
    | none => exact tk_err_bind
    | some i =>
      refine tk_use t (by simp [pipeBlocks]) fun _ => tk_pure ⟨?_, _, t⟩
      dsimp only at e2 ⊢
      rw [e2]
  unfold add_operation
  refine tk_use t (by simp [pipeBlocks]) fun _ => ?_
  dsimp only
  split
  · refine tk_use t (by simp) fun cap' => ?_
    unfold reallocOps
    simp only [hm_assoc]
    refine tk_malloc t ?_ ?_
    · intro h' _
      exact tk_err
    · intro h1 b t1
      simp only [hm_assoc]
      cases opsId with
      | none => exact touch ⟨pid, some b.id, cap', ops⟩ _ _ rfl rfl t1
      | some i => exact tk_free1 t1 fun h2 t2 => touch ⟨pid, some b.id, cap', ops⟩ _ _ rfl rfl t2
  · exact touch _ _ _ rfl rfl t

theorem shapeOp_track {L : Lib} {piece params : List Char} (t : TK hp hh X c) :
    HeapSafe (shapeOp L piece params) hh fun r h' => (∀ o ∈ r, o.operation = piece) ∧ TK hp h' X c := by
  unfold shapeOp
  split
  · exact tk_pure ⟨by simp, t⟩
  dsimp only
  split
  · exact tk_pure ⟨by simp, t⟩
  refine tk_strdup t fun h1 i t1 => ?_
  split
  · exact tk_free0 t1 fun h2 t2 => tk_pure ⟨by simp, t2⟩
  · exact tk_free0 t1 fun h2 t2 => tk_pure ⟨by simp, t2⟩

theorem extractToOp_track {L : Lib} {piece params : List Char} (t : TK hp hh X c) :
    HeapSafe (extractToOp L piece params) hh fun r h' => (∀ o ∈ r, o.operation = piece) ∧ TK hp h' X c := by
  unfold extractToOp
  refine tk_strdup t fun h1 i t1 => ?_
  split
  · exact tk_free0 t1 fun h2 t2 => tk_pure ⟨by simp, t2⟩
  · refine tk_use t1 (by simp) fun w => ?_
    refine tk_use t1 (by simp) fun h => ?_
    refine tk_free0 t1 fun h2 t2 => ?_
    split
    · exact tk_pure ⟨by simp, t2⟩
    · exact tk_pure ⟨by simp, t2⟩

theorem numericOp_name {L : Lib} {piece params : List Char} : (numericOp L piece params).operation = piece := by
  unfold numericOp
  split <;> rfl

theorem paramOp_track {L : Lib} {piece params : List Char} (t : TK hp hh X c) :
    HeapSafe (paramOp L piece params) hh fun r h' => (∀ o ∈ r, o.operation = piece) ∧ TK hp h' X c := by
  unfold paramOp
  repeat' split
  all_goals first
    | exact shapeOp_track t
    | exact extractToOp_track t
    | exact tk_pure ⟨by simp [numericOp_name, cropOp], t⟩
    | (dsimp only
       split
       all_goals exact tk_pure ⟨by simp, t⟩)

theorem runPieces_track {P : Plat} {L : Lib} : ∀ (ps : List (List Char)) {p : Pipeline} {hh : Heap} {c : Bool},
    TK hp hh (pipeBlocks p ++ X) c → HeapSafe (runPieces P L ps p) hh fun r h' =>
      (∃ qs : List (List Char), qs.Sublist ps ∧ r.2.ops.map (·.operation) = p.ops.map (·.operation) ++ qs.map fun pc => (firstWord pc).take 31) ∧
      ∃ c', TK hp h' (pipeBlocks r.2 ++ X) c'
  | [], p, hh, c, t => tk_pure ⟨⟨[], by simp, by simp⟩, _, t⟩
  | piece :: rest, p, hh, c, t => by
    have next : ∀ (o : PipelineOp) (hh : Heap) (c : Bool), o.operation = firstWord piece → TK hp hh (pipeBlocks p ++ X) c →
        HeapSafe (add_operation P p o >>= fun p => runPieces P L rest p) hh fun r h' =>
          (∃ qs : List (List Char), qs.Sublist (piece :: rest) ∧ r.2.ops.map (·.operation) = p.ops.map (·.operation) ++ qs.map fun pc => (firstWord pc).take 31) ∧
            ∃ c', TK hp h' (pipeBlocks r.2 ++ X) c' := by
      intro o hh c ho t
      refine HeapSafe.bind (add_operation_track t) ?_
      rintro q h1 ⟨e, c1, t1⟩
      refine HeapSafe.mono (runPieces_track rest t1) ?_
      rintro r h2 ⟨⟨qs, hq, e2⟩, t2⟩
      refine ⟨⟨piece :: qs, List.Sublist.cons_cons _ hq, ?_⟩, t2⟩
      rw [e2, e, List.map_append, List.append_assoc]
      simp [stored, ho]
    unfold runPieces
    cases hc : cutAt ' ' piece with
    | none =>
      refine next _ _ _ ?_ t
      have := @piece_name L piece { operation := piece } (by unfold pieceVal; rw [hc]; rfl)
      exact this
    | some np =>
      obtain ⟨name, params⟩ := np
      dsimp only
      refine HeapSafe.bind (paramOp_track t) ?_
      rintro r h1 ⟨e, t1⟩
      cases r with
      | none => exact tk_pure ⟨⟨[], by simp, by simp⟩, _, t1⟩
      | some o =>
        refine next _ _ _ ?_ t1
        rw [e o rfl]
        unfold firstWord
        obtain ⟨e1, e2⟩ := cutAt_some hc
        rw [e1]
        have := (takeWhile_of_all (p := (· ≠ ' ')) (a := name) (b := ' ' :: params)
          (fun x hx => by simpa using fun (e : x = ' ') => e2 (e ▸ hx)) (by simp)).1
        exact this.symm

/-- The parser releases what it allocates besides the list of operations, and the names stored are the first words of pieces of
the text. -/
theorem parse_pipeline_track {P : Plat} {L : Lib} {args : List (List Char)} (ha : Args P args) {p : Pipeline}
    (t : TK hp hh (pipeBlocks p ++ X) c) : HeapSafe (parse_pipeline P L args p) hh fun r h' =>
      (∃ qs : List (List Char), qs.Sublist (pieces (joined args)) ∧
        r.2.ops.map (·.operation) = p.ops.map (·.operation) ++ qs.map fun pc => (firstWord pc).take 31) ∧
      ∃ c', TK hp h' (pipeBlocks r.2 ++ X) c' := by
  unfold parse_pipeline
  dsimp only
  rw [total_eq P ha.size]
  refine tk_mallocCells t ?_ ?_
  · intro h1 t1
    exact tk_pure ⟨⟨[], by simp, by simp⟩, _, t1⟩
  · intro h1 i t1
    dsimp only
    obtain ⟨rest, e⟩ := joinArgs_ok ha.strings (m := args.foldl (fun t a => t + (a.length + 2)) 0 + 1)
      (Nat.lt_succ_of_le (joined_length args))
    refine tk_useVal (a := joined args) t1 (by simp) (by rw [e, ok_bind, cstr_of (joined_nul ha.strings)]) ?_
    rw [parsePieces_eq, ← pieces_eq]
    have t2 : TK hp h1 (pipeBlocks p ++ (i :: X)) c := t1.perm List.perm_middle.symm
    refine HeapSafe.bind (runPieces_track _ t2) ?_
    rintro r h2 ⟨hq, c3, t3⟩
    exact tk_free' t3 fun h4 t4 => tk_pure ⟨hq, _, t4⟩

/-! ### The image -/

/-- The corner operations among the pieces. -/
def cornerPieces (ps : List (List Char)) : Nat := ps.countP fun pc => firstWord pc ∈ cornerOps

theorem take_corner {s : List Char} (h : s.take 31 ∈ cornerOps) : s ∈ cornerOps := by
  have hl : (s.take 31).length ≠ 31 := by
    have : ∀ x ∈ cornerOps, x.length ≠ 31 := by decide
    exact this _ h
  have : s.take 31 = s := List.take_of_length_le (by rw [List.length_take] at hl; omega)
  rwa [this] at h

theorem lost_bound {ops : List PipelineOp} {qs ps : List (List Char)} (hq : qs.Sublist ps)
    (e : ops.map (·.operation) = qs.map fun pc => (firstWord pc).take 31) : (ops.map lostBy).sum ≤ 3 * cornerPieces ps := by
  have h1 : cornerPieces qs ≤ cornerPieces ps := hq.countP_le
  refine le_trans ?_ (Nat.mul_le_mul_left 3 h1)
  have : ops.map lostBy = qs.map fun pc => if (firstWord pc).take 31 ∈ cornerOps then 3 else 0 := by
    have := congrArg (List.map fun s => if s ∈ cornerOps then 3 else 0) e
    rw [List.map_map, List.map_map] at this
    exact this
  rw [this]
  clear this e h1 hq
  induction qs with
  | nil => simp
  | cons q qs ih =>
    unfold cornerPieces at ih ⊢
    rw [List.map_cons, List.sum_cons, List.countP_cons]
    by_cases h : (firstWord q).take 31 ∈ cornerOps
    · rw [if_pos h, if_pos (by simpa using take_corner h)]
      omega
    · rw [if_neg h]
      split <;> omega

theorem loadImage_track {W : World} {path : List Char} (t : TK hp hh X c) : HeapSafe (loadImage W path) hh fun r h' => match r with
    | none => ∃ c', TK hp h' X c'
    | some q => TK hp h' (q.1.id :: X) c := by
  unfold loadImage
  split
  · exact tk_pure ⟨_, t⟩
  · refine tk_malloc t ?_ ?_
    · intro h1 t1
      exact tk_pure ⟨_, t1⟩
    · intro h1 b t1
      exact tk_pure t1

theorem orientPick_tidy {P : Plat} {o : Int} {w h : Nat} {d : List UInt8} : TidyWith (orientPick P o w h d) := by
  intro hp
  have := TK.start hp
  unfold orientPick
  split
  · refine tk_call flip_x_tidy this ?_ ?_ <;> intros <;> repeat' tidy_step
  · refine tk_call rotate_180_tidy this ?_ ?_ <;> intros <;> repeat' tidy_step
  · refine tk_call flip_y_tidy this ?_ ?_ <;> intros <;> repeat' tidy_step
  · refine tk_call transpose_tidy this ?_ ?_ <;> intros <;> repeat' tidy_step
  · refine tk_call rotate_90_tidy this ?_ ?_ <;> intros <;> repeat' tidy_step
  · refine tk_call transverse_tidy this ?_ ?_ <;> intros <;> repeat' tidy_step
  · refine tk_call rotate_270_tidy this ?_ ?_ <;> intros <;> repeat' tidy_step
  · exact tk_pure this.null

theorem orientImage_track {P : Plat} {o : Int} {w h : Nat} {b : Buf UInt8} (t : TK hp hh (b.id :: X) c) :
    HeapSafe (orientImage P o w h b) hh fun r h' => ∃ c', TK hp h' (r.1.id :: X) c' := by
  unfold orientImage
  split
  · refine tk_use t (by simp) fun d => ?_
    refine tk_callWith orientPick_tidy t ?_ ?_
    · intro h1 x t1
      exact tk_pure ⟨_, t1⟩
    · intro h1 r x t1
      exact tk_free1 t1 fun h2 t2 => tk_pure ⟨_, t2⟩
  · exact tk_pure ⟨_, t⟩

theorem orientLoaded_track {P : Plat} {W : World} {path : List Char} {w h : Nat} {b : Buf UInt8} (t : TK hp hh (b.id :: X) c) :
    HeapSafe (orientLoaded P W path b w h) hh fun r h' => ∃ c', TK hp h' (r.1.id :: X) c' := by
  unfold orientLoaded
  split
  · refine tk_use t (by simp) fun o => orientImage_track t
  · exact tk_pure ⟨_, t⟩

end

/-- The arguments that form the pipeline (all but the program, the input and the output path; `detect_corners` alone needs no
output). -/
def pipelineArgs (argv : List (List Char)) : List (List Char) :=
  if argv.length = 3 ∧ argv.getD 2 [] = "detect_corners".toList then argv.drop 2 else (argv.drop 2).dropLast

/-- C106, up to the blocks lost by corner detection: whatever the arguments, the files and the allocation failures, the program
releases no block twice and uses none after its release, and when it returns at most three blocks for each piece of the pipeline
that detects corners are still allocated. -/
theorem main_releases_partial {P : Plat} {M : MathLib} {L : Lib} {W : World} {argv : List (List Char)} (ha : Args P (pipelineArgs argv))
    {hp : Heap} (hw : hp.WF) : HeapSafe (main P M L W argv) hp fun _ h' =>
      ∃ lost : List Nat, lost.length ≤ 3 * cornerPieces (pieces (joined (pipelineArgs argv))) ∧ HeapEffect hp h' lost := by
  have t := TK.start hp
  have nothing : ∀ {h' : Heap} {c : Bool}, TK hp h' [] c →
      ∃ lost : List Nat, lost.length ≤ 3 * cornerPieces (pieces (joined (pipelineArgs argv))) ∧ HeapEffect hp h' lost :=
    fun t => ⟨[], by simp, t.eff⟩
  unfold main
  split
  · exact tk_pure (nothing t)
  dsimp only
  split
  · exact tk_pure (nothing t)
  refine HeapSafe.bind (create_pipeline_track t) ?_
  rintro p0 h1 ⟨e0, c1, t1⟩
  refine HeapSafe.bind (parse_pipeline_track ha t1) ?_
  rintro ⟨ok, p⟩ h2 ⟨⟨qs, hq, eq⟩, c2, t2⟩
  rw [e0] at eq
  have hb := lost_bound hq eq
  dsimp only at t2 ⊢
  split
  · exact free_pipeline_track t2 fun h3 t3 => tk_pure (nothing t3)
  have hops : p.ops ≠ [] := by
    rename_i hc
    exact fun e => hc (Or.inr e)
  refine HeapSafe.bind (loadImage_track t2) ?_
  rintro r h3 hr
  cases r with
  | none =>
    obtain ⟨c3, t3⟩ := hr
    exact free_pipeline_track t3 fun h4 t4 => tk_pure (nothing t4)
  | some q =>
    obtain ⟨b, w, h⟩ := q
    dsimp only at hr ⊢
    refine HeapSafe.bind (orientLoaded_track hr) ?_
    rintro ⟨b1, w1, h1'⟩ h4 ⟨c4, t4⟩
    dsimp only at t4 ⊢
    have hlive : b1.id ∈ h4.live := t4.1.mem (by simp)
    have hex := @execute_pipeline_leaves_partial P M L w1 h1' p.ops hops b1 h4 (TK.wf t4 hw) hlive
    refine HeapSafe.bind hex ?_
    rintro ⟨r, w2, h2'⟩ h5 ⟨l, hl, hr5⟩
    have hlost : ∀ {h' : Heap} {c : Bool}, TK hp h' l c →
        ∃ lost : List Nat, lost.length ≤ 3 * cornerPieces (pieces (joined (pipelineArgs argv))) ∧ HeapEffect hp h' lost :=
      fun t => ⟨l, le_trans hl hb, t.eff⟩
    cases r with
    | none =>
      dsimp only at hr5 ⊢
      have t5 := TK.perm (t4.seq hr5) (Y := b1.id :: (pipeBlocks p ++ l)) (by
        rw [List.append_nil]
        exact List.perm_append_comm)
      refine tk_free0 t5 fun h6 t6 => ?_
      exact free_pipeline_track t6 fun h7 t7 => tk_pure (hlost t7)
    | some r =>
      dsimp only at hr5 ⊢
      have t5 := TK.perm (t4.seq hr5.1) (Y := b1.id :: r.id :: (pipeBlocks p ++ l)) (by
        rw [List.append_nil]
        refine List.perm_append_comm.trans ?_
        exact List.Perm.cons _ List.perm_middle)
      have hne : r.id ≠ b1.id := by
        have h1 := (hr5.1.2.2.2 r.id (by simp)).1
        have h2 := TK.wf t4 hw b1.id hlive
        omega
      have rel : ∀ v : Int × Option Saved, HeapSafe (releaseAll p b1 r >>= fun _ => (Pure.pure v : HM (Int × Option Saved))) h5 fun _ h' =>
          ∃ lost : List Nat, lost.length ≤ 3 * cornerPieces (pieces (joined (pipelineArgs argv))) ∧ HeapEffect hp h' lost := by
        intro v
        unfold releaseAll
        rw [if_pos hne]
        simp only [hm_assoc]
        refine tk_free0 t5 fun h6 t6 => ?_
        refine tk_free0 t6 fun h7 t7 => ?_
        exact free_pipeline_track t7 fun h8 t8 => tk_pure (hlost t8)
      split
      · exact rel _
      · exact tk_use t5 (by simp) fun s => rel _

/-- C106 for pipelines that do not detect corners: nothing the program allocated is left when it returns. -/
theorem main_releases_all {P : Plat} {M : MathLib} {L : Lib} {W : World} {argv : List (List Char)} (ha : Args P (pipelineArgs argv))
    (hc : ∀ pc ∈ pieces (joined (pipelineArgs argv)), firstWord pc ∉ cornerOps) {hp : Heap} (hw : hp.WF) :
    HeapSafe (main P M L W argv) hp fun _ h' => h'.live.Perm hp.live := by
  refine HeapSafe.mono (main_releases_partial ha hw) ?_
  rintro _ h' ⟨l, hl, e⟩
  have : cornerPieces (pieces (joined (pipelineArgs argv))) = 0 := by
    unfold cornerPieces
    rw [List.countP_eq_zero]
    intro pc hpc
    simpa using hc pc hpc
  have : l = [] := List.length_eq_zero_iff.1 (by omega)
  subst this
  exact e.1

/-! ### Concrete runs -/

/-- A library in which every number reads as 90. -/
def lib90 : Lib := ⟨fun _ => .fin 90, fun _ => "90.00".toList, 9223372036854775807⟩

/-- A mathematical library that is never used here. -/
def noMath : MathLib := ⟨fun _ => 0, fun _ _ => .fin 0, fun _ => .fin 0, fun x => x⟩

/-- A world with one image of 2×1 pixels. -/
def twoPixels : World where
  load path := if path = "in.png".toList then some (2, 1, [1, 2, 3, 4, 5, 6, 7, 8]) else none
  file _ := none
  writable path := path ≠ "/root/x.png".toList

/-- What a run of the program shows: its result and the blocks still allocated. -/
def runMain (argv : List String) (hp : Heap) : Option ((Int × Option Saved) × List Nat) :=
  match main Plat.lp64 noMath lib90 twoPixels (argv.map String.toList) hp with
  | .ok (r, h') => some (r, h'.live)
  | .error _ => none

/-- Two operations: the flipped image is rotated and saved; everything is released. -/
example : runMain ["flatcv", "in.png", "flip_x,", "rotate", "90", "out.png"] Heap.fresh =
    some ((0, some ⟨"out.png".toList, false, 1, 2, [5, 6, 7, 8, 1, 2, 3, 4]⟩), []) := by decide +kernel

/-- Unknown operations, files that cannot be read or written, no operation at all: status 1, nothing is saved or left. -/
example : runMain ["flatcv", "in.png", "flip_x,", "spin", "out.png"] Heap.fresh = some ((1, none), []) ∧
    runMain ["flatcv", "gone.png", "flip_x", "out.png"] Heap.fresh = some ((1, none), []) ∧
    runMain ["flatcv", "in.png", "flip_x", "/root/x.png"] Heap.fresh = some ((1, none), []) ∧
    runMain ["flatcv", "in.png", ",", "out.png"] Heap.fresh = some ((1, none), []) ∧
    runMain ["flatcv", "in.png"] Heap.fresh = some ((1, none), []) :=
  ⟨by decide +kernel, by decide +kernel, by decide +kernel, by decide +kernel, by decide +kernel⟩

/-- The last allocation fails: status 1 and nothing is left. -/
example : runMain ["flatcv", "in.png", "flip_x,", "rotate", "90", "out.png"] ⟨0, [], fun i => decide (i = 5)⟩ =
    some ((1, none), []) := by decide +kernel

end FlatCV.Props
