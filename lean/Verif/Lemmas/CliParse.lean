/-
Lemmas about the pipeline parser.
-/
import Verif.Lemmas.Cstr
import Verif.Lemmas.Track
import Verif.Spec.CliPipeline

namespace FlatCV

open Model Spec

/-! ### Splitting -/

theorem strtokFrom_eq (sep : Char) (s cur : List Char) :
    strtokFrom sep cur s = (List.splitOnPPrepend (· == sep) s cur).filter (· ≠ []) := by
  induction s generalizing cur with
  | nil =>
    unfold strtokFrom
    rw [List.splitOnPPrepend_nil]
    by_cases h : cur = []
    · simp [h]
    · simp [h]
  | cons x t ih =>
    unfold strtokFrom
    by_cases hx : x = sep
    · rw [List.splitOnPPrepend_cons_pos (by simp [hx]), if_pos hx, ih, List.splitOnPPrepend_nil_right]
      by_cases h : cur = []
      · simp [h]
      · simp [h]
    · rw [List.splitOnPPrepend_cons_neg (by simp [hx]), if_neg hx, ih]

theorem strtok_eq (sep : Char) (s : List Char) : strtok sep s = (s.splitOn sep).filter (· ≠ []) := by
  unfold strtok
  rw [strtokFrom_eq, List.splitOnPPrepend_nil_right]
  rfl

theorem stripParens_eq (s : List Char) : stripParens s = unparen s := by
  unfold stripParens unparen
  rcases s with - | ⟨c, t⟩
  · rfl
  · rcases t with - | ⟨d, u⟩
    · have h : ¬ (([c] : List Char).head? = some '(' ∧ ([c] : List Char).getLast? = some ')') := by
        rintro ⟨h1, h2⟩
        cases h1
        exact absurd h2 (by decide)
      have h' : ¬ (([c] : List Char).head? = some '(' ∧ ([c] : List Char).tail.getLast? = some ')') := by
        rintro ⟨-, h2⟩
        cases h2
      rw [if_neg h, if_neg h']
    · have h1 : (c :: d :: u).getLast? = (c :: d :: u).tail.getLast? := List.getLast?_cons_cons
      have h2 : (c :: d :: u).dropLast.tail = (c :: d :: u).tail.dropLast := rfl
      rw [h1, h2, trim_eq]

theorem strip_nil : strip [] = [] := rfl

theorem unparen_nil : unparen [] = [] := rfl

theorem pieces_eq (text : List Char) :
    pieces text = (((strtok ',' text).map trim_whitespace).map stripParens).filter (· ≠ []) := by
  unfold pieces
  rw [strtok_eq]
  have h1 : trim_whitespace = strip := funext trim_eq
  have h2 : stripParens = unparen := funext stripParens_eq
  rw [h1, h2]
  induction text.splitOn ',' with
  | nil => rfl
  | cons a l ih =>
    by_cases ha : a = []
    · subst ha
      rw [List.filter_cons_of_neg (by simp)]
      rw [← ih]
      rfl
    · rw [List.filter_cons_of_pos (by simp [ha])]
      simp only [List.map_cons]
      by_cases hb : unparen (strip a) = []
      · rw [List.filter_cons_of_neg (by simp [hb]), List.filter_cons_of_neg (by simp [hb]), ih]
      · rw [List.filter_cons_of_pos (by simp [hb]), List.filter_cons_of_pos (by simp [hb]), ih]

/-- The loop over the pieces themselves. -/
def runPieces (P : Plat) (L : Lib) : List (List Char) → Pipeline → HM (Bool × Pipeline)
  | [], p => pure (true, p)
  | piece :: rest, p =>
    match cutAt ' ' piece with
    | none => do
      let p ← add_operation P p { operation := piece }
      runPieces P L rest p
    | some (name, params) => do
      match ← paramOp L name (trim_whitespace params) with
      | none => pure (false, p)
      | some o => do
        let p ← add_operation P p o
        runPieces P L rest p

theorem parsePieces_eq (P : Plat) (L : Lib) (toks : List (List Char)) (p : Pipeline) :
    parsePieces P L toks p = runPieces P L (((toks.map trim_whitespace).map stripParens).filter (· ≠ [])) p := by
  induction toks generalizing p with
  | nil => rfl
  | cons tok rest ih =>
    unfold parsePieces
    dsimp only
    simp only [List.map_cons]
    by_cases h1 : trim_whitespace tok = []
    · rw [if_pos h1, ih, h1]
      rfl
    · rw [if_neg h1]
      by_cases h2 : stripParens (trim_whitespace tok) = []
      · rw [if_pos h2, List.filter_cons_of_neg (by simp [h2]), ih]
      · rw [if_neg h2, List.filter_cons_of_pos (by simp [h2])]
        conv_rhs => unfold runPieces
        simp only [ih]
        rfl

/-! ### Joining the arguments -/

theorem cstr_of {s : List Char} (hs : nul ∉ s) (r : Cells Char) : cstr (s.map some ++ some nul :: r) = .ok s := by
  induction s with
  | nil => rfl
  | cons c t ih =>
    rw [List.map_cons, List.cons_append]
    unfold cstr
    rw [if_neg (fun h : c = nul => hs (h ▸ List.mem_cons_self ..)), ih fun h => hs (List.mem_cons_of_mem _ h)]
    rfl

theorem memcpyIn_prefix (a : Cells Char) (src : List Char) (b : Cells Char) (n : Nat) (hn : n ≤ src.length) (hb : n ≤ b.length) :
    memcpyIn (a ++ b) a.length src 0 n = .ok (a ++ (src.take n).map some ++ b.drop n) := by
  unfold memcpyIn
  induction n with
  | zero =>
    rw [forN_zero]
    simp
  | succ k ih =>
    rw [forN_succ, ih (by omega) (by omega), ok_bind, rdIn_ok (show src[0 + k]? = some (src[k]'(by omega)) by simp), ok_bind]
    rw [wr_ok (by simp; omega)]
    congr 1
    have hl : (a ++ (src.take k).map some).length = a.length + k := by simp; omega
    rw [List.set_append_right _ _ (by rw [hl]), hl, Nat.sub_self]
    have hd : b.drop k = b[k]'(by omega) :: b.drop (k + 1) := List.drop_eq_getElem_cons (by omega)
    rw [hd, List.set_cons_zero]
    rw [List.take_succ_eq_append_getElem (by omega), List.map_append]
    simp

theorem strcat_of {s src : List Char} (hs : nul ∉ s) {r : Cells Char} (hr : src.length ≤ r.length) :
    strcat (s.map some ++ some nul :: r) src = .ok ((s ++ src).map some ++ some nul :: r.drop src.length) := by
  unfold strcat
  rw [cstr_of hs, ok_bind]
  have h := memcpyIn_prefix (s.map some) (src ++ [nul]) (some nul :: r) (src.length + 1) (by simp) (by simp; omega)
  rw [List.length_map] at h
  rw [h]
  rw [List.take_of_length_le (by simp)]
  simp

theorem joined_nul {l : List (List Char)} : (∀ a ∈ l, nul ∉ a) → nul ∉ joined l := by
  induction l with
  | nil => intro _; simp [joined]
  | cons a t ih' =>
    intro h
    cases t with
    | nil => simpa [joined] using h a (List.mem_cons_self ..)
    | cons b u =>
      unfold joined at ih' ⊢
      rw [List.intercalate_cons_cons]
      simp only [List.mem_append, not_or]
      exact ⟨⟨h a (List.mem_cons_self ..), by decide⟩, ih' fun x hx => h x (List.mem_cons_of_mem _ hx)⟩

/-- The arguments joined. -/
theorem joinArgs_ok {args : List (List Char)} (hn : ∀ a ∈ args, nul ∉ a) {m : Nat}
    (hm : (joined args).length < m) :
    ∃ r, joinArgs args (List.replicate m none) = .ok ((joined args).map some ++ some nul :: r) := by
  obtain ⟨m, rfl⟩ : ∃ k, m = k + 1 := ⟨m - 1, by omega⟩
  unfold joinArgs
  rw [wr_ok (by simp), ok_bind]
  have key : ∀ k, k ≤ args.length → ∃ r : Cells Char, r.length + (joined (args.take k)).length = m ∧
      forN k ((List.replicate (m + 1) none).set 0 (some nul)) (fun i c => do
        let c ← if 0 < i then strcat c [' '] else pure c
        let a ← rdIn args i
        strcat c a) = .ok ((joined (args.take k)).map some ++ some nul :: r) := by
    intro k
    induction k with
    | zero =>
      intro _
      refine ⟨List.replicate m none, ?_, ?_⟩
      · simp [joined]
      · rw [forN_zero]
        rfl
    | succ k ih =>
      intro hk
      obtain ⟨r, hr, e⟩ := ih (by omega)
      rw [forN_succ, e, ok_bind]
      have hmem : args[k] ∈ args := List.getElem_mem ..
      have hlen : (joined (args.take (k + 1))).length ≤ (joined args).length := by
        have h1 : ∀ (l : List (List Char)) (j : Nat), (joined (l.take j)).length ≤ (joined l).length := by
          intro l
          induction l with
          | nil => intro j; simp [joined]
          | cons a t ih' =>
            intro j
            cases j with
            | zero => simp [joined]
            | succ j =>
              rw [List.take_succ_cons]
              have := ih' j
              cases t with
              | nil => simp [joined]
              | cons b u =>
                cases j with
                | zero => simp [joined]
                | succ j =>
                  rw [List.take_succ_cons] at this ⊢
                  unfold joined at this ⊢
                  rw [List.intercalate_cons_cons, List.intercalate_cons_cons]
                  simp only [List.length_append]
                  omega
        exact h1 _ _
      have hnul : nul ∉ joined (args.take k) := by
        exact joined_nul fun a ha => hn a (List.mem_of_mem_take ha)
      have htake : joined (args.take (k + 1)) = if k = 0 then args[k] else joined (args.take k) ++ ' ' :: args[k] := by
        rw [List.take_succ_eq_append_getElem (by omega)]
        have h1 : ∀ (l : List (List Char)) (a : List Char), joined (l ++ [a]) = if l = [] then a else joined l ++ ' ' :: a := by
          intro l a
          induction l with
          | nil => simp [joined]
          | cons b t ih' =>
            rw [if_neg (by simp)]
            cases t with
            | nil => simp [joined]
            | cons c u =>
              rw [if_neg (by simp)] at ih'
              unfold joined at ih' ⊢
              rw [List.cons_append, List.cons_append, List.intercalate_cons_cons, ← List.cons_append, ih', List.intercalate_cons_cons]
              simp
        rw [h1]
        by_cases hk0 : k = 0
        · subst hk0
          simp
        · rw [if_neg, if_neg hk0]
          intro h
          have := congrArg List.length h
          rw [List.length_take, List.length_nil] at this
          omega
      rw [htake] at hlen ⊢
      by_cases hk0 : k = 0
      · subst hk0
        rw [if_pos rfl] at hlen ⊢
        rw [if_neg (by omega), pure_bind']
        dsimp only
        rw [rdIn_ok (List.getElem?_eq_getElem (by omega)), ok_bind]
        have hr0 : r.length = m := by simpa [joined] using hr
        rw [List.take_zero] at hnul ⊢
        refine ⟨_, ?_, strcat_of hnul (by omega)⟩
        rw [List.length_drop]
        omega
      · rw [if_neg hk0] at hlen ⊢
        simp only [List.length_append, List.length_cons] at hlen
        rw [if_pos (by omega), strcat_of hnul (by simp; omega), ok_bind]
        dsimp only
        rw [rdIn_ok (List.getElem?_eq_getElem (by omega)), ok_bind]
        have hn' : nul ∉ joined (args.take k) ++ [' '] := by
          simp only [List.mem_append, not_or]
          exact ⟨hnul, by decide⟩
        refine ⟨(r.drop 1).drop args[k].length, ?_, ?_⟩
        · simp only [List.length_append, List.length_cons, List.length_drop]
          omega
        · have := strcat_of (src := args[k]) hn' (r := r.drop 1) (by rw [List.length_drop]; omega)
          rw [List.append_assoc] at this
          exact this
  obtain ⟨r, -, e⟩ := key args.length (le_refl _)
  rw [List.take_length] at e
  exact ⟨r, e⟩

theorem joined_length (args : List (List Char)) : (joined args).length ≤ args.foldl (fun t a => t + (a.length + 2)) 0 := by
  have h1 : ∀ (l : List (List Char)) (s : Nat), l.foldl (fun t a => t + (a.length + 2)) s = s + l.foldl (fun t a => t + (a.length + 2)) 0 := by
    intro l
    induction l with
    | nil => intro s; simp
    | cons a t ih => intro s; rw [List.foldl_cons, List.foldl_cons, ih, ih (0 + _)]; omega
  induction args with
  | nil => simp [joined]
  | cons a t ih =>
    rw [List.foldl_cons, h1]
    cases t with
    | nil => simp [joined]
    | cons b u =>
      unfold joined at ih ⊢
      rw [List.intercalate_cons_cons]
      simp only [List.length_append, List.length_cons, List.length_nil]
      omega

/-! ### One piece -/

/-- `shapeOp` without its heap. -/
def shapeVal (L : Lib) (piece params : List Char) : Option PipelineOp :=
  match cutAt ' ' params with
  | none => none
  | some (a, b) =>
    match cutAt ' ' (trim_whitespace b) with
    | none => none
    | some (r, pos) =>
      match cutAt 'x' (trim_whitespace pos) with
      | none => none
      | some (x, y) =>
        some { operation := piece, param := L.atof (trim_whitespace r), has_param := true,
               param2 := L.atof (trim_whitespace x), has_param2 := true,
               param3 := L.atof (trim_whitespace y), has_param3 := true,
               param_str := (trim_whitespace a ++ ' ' :: L.fmt (L.atof (trim_whitespace x)) ++
                 ' ' :: L.fmt (L.atof (trim_whitespace y))).take 127, has_string_param := true }

/-- `extractToOp` without its heap. -/
def extractToVal (L : Lib) (piece params : List Char) : CM (Option PipelineOp) :=
  match cutAt 'x' params with
  | none => pure none
  | some (a, b) => do
    let w ← atoi L.lmax (trim_whitespace a)
    let h ← atoi L.lmax (trim_whitespace b)
    if u32OfInt w > 0 ∧ u32OfInt h > 0 then
      pure (some { operation := piece, param := .fin (u32OfInt w), has_param := true, param2 := .fin (u32OfInt h), has_param2 := true })
    else pure none

/-- `paramOp` without its heap. -/
def paramVal (L : Lib) (piece params : List Char) : CM (Option PipelineOp) :=
  if piece = "circle".toList ∨ piece = "disk".toList then pure (shapeVal L piece params)
  else if piece = "extract_document_to".toList then extractToVal L piece params
  else match paramOp L piece params ⟨0, [], fun _ => false⟩ with
    | .ok (r, _) => .ok r
    | .error (.comp e) => .error e
    | .error _ => .error .nullDeref

theorem strdup_ok {hp h : Heap} {X : List Nat} (s : List Char) (t : Track hp h X) (hf : ∀ i, hp.fails i = false) :
    HOk (strdup s) h fun i h' => Track hp h' (i :: X) := by
  unfold strdup
  refine HOk.bind (t.malloc hf) ?_
  rintro r h' ⟨i, rfl, t'⟩
  exact HOk.pure t'

theorem shapeOp_ok (L : Lib) (piece params : List Char) {hp h : Heap} {X : List Nat} (t : Track hp h X)
    (hf : ∀ i, hp.fails i = false) : HOk (shapeOp L piece params) h fun r h' => r = shapeVal L piece params ∧ Track hp h' X := by
  unfold shapeOp shapeVal
  cases cutAt ' ' params with
  | none => exact HOk.pure ⟨rfl, t⟩
  | some ab =>
    obtain ⟨a, b⟩ := ab
    dsimp only
    cases cutAt ' ' (trim_whitespace b) with
    | none => exact HOk.pure ⟨rfl, t⟩
    | some rp =>
      obtain ⟨r, pos⟩ := rp
      dsimp only
      refine HOk.bind (strdup_ok _ t hf) ?_
      intro i h' t'
      cases cutAt 'x' (trim_whitespace pos) with
      | none =>
        refine HOk.bind (t'.free (List.Perm.refl _)) ?_
        intro _ h'' t''
        exact HOk.pure ⟨rfl, t''⟩
      | some xy =>
        obtain ⟨x, y⟩ := xy
        dsimp only
        refine HOk.bind (t'.free (List.Perm.refl _)) ?_
        intro _ h'' t''
        exact HOk.pure ⟨rfl, t''⟩

theorem extractToOp_ok (L : Lib) (piece params : List Char) {hp h : Heap} {X : List Nat} (t : Track hp h X)
    (hf : ∀ i, hp.fails i = false) {v : Option PipelineOp} (hv : extractToVal L piece params = .ok v) :
    HOk (extractToOp L piece params) h fun r h' => r = v ∧ Track hp h' X := by
  unfold extractToOp
  unfold extractToVal at hv
  refine HOk.bind (strdup_ok _ t hf) ?_
  intro i h' t'
  cases hc : cutAt 'x' params with
  | none =>
    rw [hc] at hv
    cases hv
    dsimp only
    refine HOk.bind (t'.free (List.Perm.refl _)) ?_
    intro _ h'' t''
    exact HOk.pure ⟨rfl, t''⟩
  | some ab =>
    obtain ⟨a, b⟩ := ab
    rw [hc] at hv
    dsimp only at hv ⊢
    cases hw : atoi L.lmax (trim_whitespace a) with
    | error e => rw [hw] at hv; cases hv
    | ok w =>
      rw [hw, ok_bind] at hv
      cases hh : atoi L.lmax (trim_whitespace b) with
      | error e => rw [hh] at hv; cases hv
      | ok k =>
        rw [hh, ok_bind] at hv
        refine HOk.bind (t'.use (ids := []) (by simp) rfl) ?_
        rintro w' h1 ⟨rfl, rfl⟩
        refine HOk.bind (t'.use (ids := []) (by simp) rfl) ?_
        rintro k' h1 ⟨rfl, rfl⟩
        refine HOk.bind (t'.free (List.Perm.refl _)) ?_
        intro _ h'' t''
        split_ifs at hv ⊢
        · cases hv
          exact HOk.pure ⟨rfl, t''⟩
        · cases hv
          exact HOk.pure ⟨rfl, t''⟩

theorem paramOp_ok (L : Lib) (piece params : List Char) {hp h : Heap} {X : List Nat} (t : Track hp h X)
    (hf : ∀ i, hp.fails i = false) {v : Option PipelineOp} (hv : paramVal L piece params = .ok v) :
    HOk (paramOp L piece params) h fun r h' => r = v ∧ Track hp h' X := by
  unfold paramVal at hv
  by_cases h1 : piece = "circle".toList ∨ piece = "disk".toList
  · rw [if_pos h1] at hv
    cases hv
    unfold paramOp
    rw [if_neg (by rcases h1 with rfl | rfl <;> decide), if_pos h1]
    exact shapeOp_ok L piece params t hf
  rw [if_neg h1] at hv
  by_cases h2 : piece = "extract_document_to".toList
  · rw [if_pos h2] at hv
    unfold paramOp
    rw [if_neg (by rw [h2]; decide), if_neg h1, if_neg (by rw [h2]; decide), if_neg (by rw [h2]; decide), if_pos h2]
    exact extractToOp_ok L piece params t hf hv
  rw [if_neg h2] at hv
  have key : ∃ w, paramOp L piece params = pure w := by
    unfold paramOp
    rw [if_neg h1, if_neg h2]
    split_ifs
    · exact ⟨_, rfl⟩
    · exact ⟨_, rfl⟩
    · exact ⟨_, rfl⟩
    · cases parse_geometry L.lmax (some params) with
      | none => exact ⟨_, rfl⟩
      | some q => exact ⟨_, rfl⟩
    · exact ⟨_, rfl⟩
    · cases cutAt ' ' params with
      | none => exact ⟨_, rfl⟩
      | some q =>
        dsimp only
        split_ifs
        · exact ⟨_, rfl⟩
        · exact ⟨_, rfl⟩
    · exact ⟨_, rfl⟩
    · exact ⟨_, rfl⟩
    · exact ⟨_, rfl⟩
  obtain ⟨w, e⟩ := key
  rw [e] at hv ⊢
  cases hv
  exact HOk.pure ⟨rfl, t⟩

/-- The operation of a piece, `none` for an error. -/
def pieceVal (L : Lib) (piece : List Char) : CM (Option PipelineOp) :=
  match cutAt ' ' piece with
  | none => pure (some { operation := piece })
  | some (name, params) => paramVal L name (trim_whitespace params)

/-! ### The list of operations -/

/-- The invariant of the list of operations, `n` of them stored. -/
structure PipeOk (p : Pipeline) : Prop where
  array : ∃ i, p.opsId = some i
  pos : 1 ≤ p.capacity
  room : (p.ops.length : Int) ≤ p.capacity
  bound : p.capacity ≤ 8 ∨ p.capacity ≤ 2 * (p.ops.length : Int)

theorem hm_assoc {α β γ : Type} (m : HM α) (f : α → HM β) (g : β → HM γ) : (m >>= f) >>= g = m >>= fun a => f a >>= g := by
  funext h
  rw [hm_bind, hm_bind, hm_bind]
  cases m h with
  | error e => rfl
  | ok r => rfl

theorem hm_pure_bind {α β : Type} (a : α) (f : α → HM β) : (pure a : HM α) >>= f = f a := rfl

theorem add_operation_ok (P : Plat) {p : Pipeline} (hp' : PipeOk p) (hn : p.ops.length < 1073741824) (o : PipelineOp)
    {hp h : Heap} {X : List Nat} (t : Track hp h (p.opsId.toList ++ p.pid :: X)) (hf : ∀ i, hp.fails i = false) :
    HOk (add_operation P p o) h fun q h' => q.ops = p.ops ++ [stored o] ∧ PipeOk q ∧ q.pid = p.pid ∧
      Track hp h' (q.opsId.toList ++ q.pid :: X) := by
  obtain ⟨⟨a, ha⟩, h1, h2, h3⟩ := hp'
  obtain ⟨pid, opsId, cap, ops⟩ := p
  dsimp only at ha h1 h2 h3 hn t
  subst ha
  dsimp only [Option.toList_some, List.singleton_append] at t
  unfold add_operation
  refine HOk.bind (t.use (ids := [pid]) (by simp) rfl) ?_
  rintro - h0 ⟨-, rfl⟩
  dsimp only
  by_cases hc : cap ≤ (ops.length : Int)
  · rw [if_pos hc]
    have hcap : i32 (cap * 2) = .ok (cap * 2) := i32_ok ⟨by omega, by omega⟩
    refine HOk.bind (t.use (ids := []) (by simp) hcap) ?_
    rintro c h1' ⟨rfl, rfl⟩
    unfold reallocOps
    rw [hm_assoc]
    refine HOk.bind (t.malloc hf) ?_
    rintro r h4 ⟨i, rfl, t4⟩
    dsimp only
    rw [hm_assoc]
    refine HOk.bind (t4.free (Y := i :: pid :: X) (List.Perm.swap ..)) ?_
    intro _ h5 t5
    rw [hm_pure_bind]
    dsimp only
    rw [hm_pure_bind]
    dsimp only
    refine HOk.bind (t5.use (ids := [i]) (by simp) (if_pos (by dsimp only; omega))) ?_
    rintro - h6 ⟨-, rfl⟩
    refine HOk.pure ⟨rfl, ⟨⟨_, rfl⟩, ?_, ?_, ?_⟩, rfl, t5⟩
    · dsimp only; omega
    · dsimp only; rw [List.length_append, List.length_singleton]; push_cast; omega
    · right; dsimp only; rw [List.length_append, List.length_singleton]; push_cast; omega
  · rw [if_neg hc, hm_pure_bind]
    refine HOk.bind (t.use (ids := [a]) (by simp) (if_pos (by dsimp only; omega))) ?_
    rintro - h6 ⟨-, rfl⟩
    refine HOk.pure ⟨rfl, ⟨⟨_, rfl⟩, h1, ?_, ?_⟩, rfl, t⟩
    · dsimp only; rw [List.length_append, List.length_singleton]; push_cast; omega
    · dsimp only; rw [List.length_append, List.length_singleton]; push_cast; omega

/-- The result of the loop: whether all pieces are right, and the operations of the pieces before the first wrong one. -/
def runVal (L : Lib) : List (List Char) → Bool × List PipelineOp
  | [] => (true, [])
  | pc :: rest =>
    match pieceVal L pc with
    | .ok (some o) => ((runVal L rest).1, o :: (runVal L rest).2)
    | _ => (false, [])

/-- The operations of the pieces are stored in order, up to the first piece in error. -/
theorem runPieces_ok (P : Plat) (L : Lib) (ps : List (List Char)) : ∀ {p : Pipeline}, PipeOk p →
    p.ops.length + ps.length < 1073741824 → (∀ pc ∈ ps, ∃ v, pieceVal L pc = .ok v) → ∀ {hp h : Heap} {X : List Nat},
    Track hp h (p.opsId.toList ++ p.pid :: X) → (∀ i, hp.fails i = false) →
    HOk (runPieces P L ps p) h fun r h' => r.1 = (runVal L ps).1 ∧ r.2.ops = p.ops ++ (runVal L ps).2.map stored ∧
      PipeOk r.2 ∧ Track hp h' (r.2.opsId.toList ++ r.2.pid :: X) := by
  induction ps with
  | nil =>
    intro p hp' hn hv hp h X t hf
    exact HOk.pure ⟨rfl, by simp [runVal], hp', t⟩
  | cons pc rest ih =>
    intro p hp' hn hv hp h X t hf
    have hn' : p.ops.length + (rest.length + 1) < 1073741824 := hn
    have cont : ∀ o, pieceVal L pc = .ok (some o) → ∀ {h1 : Heap}, Track hp h1 (p.opsId.toList ++ p.pid :: X) →
        HOk (add_operation P p o >>= fun p => runPieces P L rest p) h1 fun r h' => r.1 = (runVal L (pc :: rest)).1 ∧
          r.2.ops = p.ops ++ (runVal L (pc :: rest)).2.map stored ∧ PipeOk r.2 ∧ Track hp h' (r.2.opsId.toList ++ r.2.pid :: X) := by
      intro o ho h1 t1
      refine HOk.bind (add_operation_ok P hp' (by omega) o t1 hf) ?_
      rintro q h2 ⟨e, hq, -, t2⟩
      refine (ih hq (by rw [e, List.length_append, List.length_singleton]; omega)
        (fun c hc => hv c (List.mem_cons_of_mem _ hc)) t2 hf).mono ?_
      rintro r h3 ⟨e1, e2, hr, t3⟩
      unfold runVal
      rw [ho]
      refine ⟨e1, ?_, hr, t3⟩
      rw [e2, e]
      simp
    obtain ⟨v, hv0⟩ := hv pc (List.mem_cons_self ..)
    unfold runPieces
    cases hc : cutAt ' ' pc with
    | none =>
      have hv1 : pieceVal L pc = .ok (some { operation := pc }) := by
        unfold pieceVal
        rw [hc]
        rfl
      exact cont _ hv1 t
    | some np =>
      obtain ⟨name, params⟩ := np
      dsimp only
      have hv1 : paramVal L name (trim_whitespace params) = .ok v := by
        unfold pieceVal at hv0
        rw [hc] at hv0
        exact hv0
      refine HOk.bind (paramOp_ok L name _ t hf hv1) ?_
      rintro r h1 ⟨e, t1⟩
      rw [e]
      cases v with
      | none =>
        refine HOk.pure ?_
        unfold runVal
        rw [hv0]
        exact ⟨rfl, by simp, hp', t1⟩
      | some o => exact cont o hv0 t1

/-! ### Words -/

theorem cutAt_of {c : Char} {a : List Char} (b : List Char) (h : c ∉ a) : cutAt c (a ++ c :: b) = some (a, b) := by
  induction a with
  | nil => simp [cutAt]
  | cons x t ih =>
    have hx : x ≠ c := fun e => h (e ▸ List.mem_cons_self ..)
    rw [List.cons_append]
    unfold cutAt
    rw [if_neg hx, ih fun h' => h (List.mem_cons_of_mem _ h')]
    rfl

theorem cutAt_none {c : Char} {a : List Char} (h : c ∉ a) : cutAt c a = none := by
  induction a with
  | nil => rfl
  | cons x t ih =>
    have hx : x ≠ c := fun e => h (e ▸ List.mem_cons_self ..)
    unfold cutAt
    rw [if_neg hx, ih fun h' => h (List.mem_cons_of_mem _ h')]
    rfl

theorem cutAt_some {c : Char} {s a b : List Char} (h : cutAt c s = some (a, b)) : s = a ++ c :: b ∧ c ∉ a := by
  induction s generalizing a b with
  | nil => cases h
  | cons x t ih =>
    unfold cutAt at h
    by_cases hx : x = c
    · rw [if_pos hx] at h
      cases h
      exact ⟨by rw [hx]; rfl, by simp⟩
    · rw [if_neg hx] at h
      cases ht : cutAt c t with
      | none => rw [ht] at h; cases h
      | some r =>
        rw [ht] at h
        obtain ⟨a', b'⟩ := r
        cases h
        obtain ⟨e1, e2⟩ := ih ht
        refine ⟨by rw [e1]; rfl, ?_⟩
        intro hm
        rcases List.mem_cons.1 hm with e | e
        · exact hx e.symm
        · exact e2 e

theorem cutAt_none_iff {c : Char} {s : List Char} : cutAt c s = none ↔ c ∉ s := by
  constructor
  · intro h hm
    obtain ⟨a, b, rfl, ha⟩ := List.eq_append_cons_of_mem hm
    rw [cutAt_of b ha] at h
    cases h
  · exact cutAt_none

theorem strip_self {s : List Char} (h1 : ∀ x, s.head? = some x → blank x = false) (h2 : ∀ x, s.getLast? = some x → blank x = false) :
    strip s = s := by
  unfold strip
  have hd : s.dropWhile blank = s := by
    cases s with
    | nil => rfl
    | cons a t => rw [List.dropWhile_cons_of_neg]; rw [h1 a rfl]; simp
  rw [hd]
  rcases List.eq_nil_or_concat s with rfl | ⟨t, b, rfl⟩
  · rfl
  · rw [List.concat_eq_append] at h2 ⊢
    rw [List.rdropWhile_concat_neg]
    rw [h2 b (by simp)]
    simp

theorem Spec.Word.strip {s : List Char} (h : Word s) : strip s = s :=
  strip_self (fun _ hx => h.2 _ (List.mem_of_mem_head? hx)) (fun _ hx => h.2 _ (List.mem_of_getLast? hx))

theorem Spec.Word.space {s : List Char} (h : Word s) : ' ' ∉ s := fun hm => absurd (h.2 _ hm) (by decide)

theorem strip_between {a m b : List Char} (ha : Word a) (hb : Word b) : strip (a ++ m ++ b) = a ++ m ++ b := by
  apply strip_self
  · intro x hx
    obtain ⟨c, t, rfl⟩ := List.exists_cons_of_ne_nil ha.1
    cases hx
    exact ha.2 _ (List.mem_cons_self ..)
  · intro x hx
    rw [List.getLast?_append_of_ne_nil _ hb.1] at hx
    exact hb.2 _ (List.mem_of_getLast? hx)

theorem piece_cut {L : Lib} {name rest : List Char} (h1 : ' ' ∉ name) (h2 : strip rest = rest) :
    pieceVal L (name ++ ' ' :: rest) = paramVal L name rest := by
  unfold pieceVal
  rw [cutAt_of _ h1]
  dsimp only
  rw [trim_eq, h2]

end FlatCV
