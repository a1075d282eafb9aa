/-
C65: the text of a pipeline and its operations.
-/
import Verif.Props.CliGeometry
import Verif.Lemmas.CliParse

namespace FlatCV.Props

open Model Spec

theorem dec_word (n : Nat) : Word (dec n) :=
  ⟨Nat.toDigits_ne_nil, fun _ hc => digit_not_blank (Nat.isDigit_of_mem_toDigits (by decide) (by decide) hc)⟩

theorem dec_no_x (n : Nat) : 'x' ∉ dec n := fun h =>
  absurd (Nat.isDigit_of_mem_toDigits (by decide) (by decide) h) (by decide)

theorem _root_.FlatCV.Spec.Word.append {a b : List Char} (ha : Word a) (hb : ∀ c ∈ b, blank c = false) : Word (a ++ b) :=
  ⟨by simp [ha.1], fun c hc => (List.mem_append.1 hc).elim (ha.2 c) (hb c)⟩

theorem signed_chars (z : Int) : ∀ c ∈ signed z, blank c = false := by
  intro c hc
  unfold signed at hc
  rcases List.mem_cons.1 hc with rfl | hc
  · by_cases h : z < 0 <;> simp [h] <;> decide
  · exact (dec_word _).2 c hc

theorem atoi_dec {lmax n : Nat} (hl : 2147483647 ≤ lmax) (hn : n ≤ 2147483647) : atoi lmax (dec n) = .ok (n : Int) := by
  have e : strtol lmax (dec n) = ((n : Int), []) := by
    unfold strtol
    have := scanInt_of (rest := []) (numeral_dec n) nil_head
    rw [List.append_nil] at this
    rw [this]
    dsimp only
    rw [if_neg (by simp), if_neg (by omega)]
  unfold atoi
  rw [e]
  exact i32_ok ⟨by omega, by omega⟩

/-- Operations without a syntax of their own take one or two numbers. -/
theorem paramVal_plain (L : Lib) {name : List Char} (h : name ∉ special) (ps : List Char) :
    paramVal L name ps = .ok (some (numericOp L name ps)) := by
  unfold special at h
  simp only [List.mem_cons, List.not_mem_nil, or_false, not_or] at h
  obtain ⟨h1, h2, h3, h4, h5, h6, h7, h8, h9⟩ := h
  unfold paramVal paramOp
  rw [if_neg (by tauto), if_neg h6, if_neg h1, if_neg (by tauto), if_neg h4, if_neg h5, if_neg h6, if_neg h7, if_neg h8, if_neg h9]
  rfl

theorem numericOp_one (L : Lib) (name : List Char) {a : List Char} (ha : Word a) :
    numericOp L name a = { operation := name, param := L.atof a, has_param := true } := by
  unfold numericOp
  rw [cutAt_none ha.space]

theorem numericOp_two (L : Lib) (name : List Char) {a b : List Char} (ha : Word a) (hb : Word b) :
    numericOp L name (a ++ ' ' :: b) =
      { operation := name, param := L.atof a, has_param := true, param2 := L.atof b, has_param2 := true } := by
  unfold numericOp
  rw [cutAt_of _ ha.space]
  dsimp only
  rw [trim_eq, trim_eq, ha.strip, hb.strip]

theorem strip_two {a b : List Char} (ha : Word a) (hb : Word b) : strip (a ++ ' ' :: b) = a ++ ' ' :: b := by
  have := strip_between (m := [' ']) ha hb
  rwa [List.append_assoc] at this

theorem resize_num (L : Lib) {ps : List Char} (h : '%' ∉ ps ∧ 'x' ∉ ps) :
    paramVal L "resize".toList ps = .ok (some (numericOp L "resize".toList ps)) := by
  unfold paramVal paramOp
  rw [if_neg (by decide), if_neg (by decide), if_pos rfl, if_neg (by tauto)]
  rfl

/-- A piece is parsed to the operation it denotes. -/
theorem piece_means {L : Lib} (hl : 2147483647 ≤ L.lmax) {piece : List Char} {o : PipelineOp} (h : Means L.atof L.fmt piece o) :
    pieceVal L piece = .ok (some o) := by
  cases h with
  | bare hw =>
    unfold pieceVal
    rw [cutAt_none hw.space]
    rfl
  | one hw hs ha =>
    rw [piece_cut hw.space ha.strip, paramVal_plain L hs, numericOp_one L _ ha]
  | oneOf hm ha h1 h2 =>
    rename_i name a
    have hn : ' ' ∉ name := by
      rcases List.mem_cons.1 hm with rfl | hm
      · decide
      · rw [List.mem_singleton.1 hm]; decide
    rw [piece_cut hn ha.strip]
    rcases List.mem_cons.1 hm with rfl | hm
    · rw [resize_num L ⟨h1, h2⟩, numericOp_one L _ ha]
    · rw [List.mem_singleton.1 hm]
      unfold paramVal paramOp
      rw [if_neg (by decide), if_neg (by decide), if_neg (by decide), if_neg (by decide), if_neg (by decide), if_neg (by decide),
        if_neg (by decide), if_neg (by decide), if_neg (by decide), if_pos rfl, if_neg h1]
      rfl
  | two hw hs ha hb =>
    rw [piece_cut hw.space (strip_two ha hb)]
    rcases hs with hs | ⟨rfl, h1, h2⟩
    · rw [paramVal_plain L hs, numericOp_two L _ ha hb]
    · rw [resize_num L, numericOp_two L _ ha hb]
      simp only [List.mem_append, not_or] at h1 h2
      simp only [List.mem_append, List.mem_cons, not_or]
      exact ⟨⟨h1.1, by decide, h1.2⟩, h2.1, by decide, h2.2⟩
  | text hm ha =>
    rename_i name a
    rcases hm with ⟨rfl, hm⟩ | ⟨rfl, hm⟩
    · rw [piece_cut (by decide) ha.strip]
      unfold paramVal paramOp
      rw [if_neg (by decide), if_neg (by decide), if_pos rfl, if_pos hm]
      rfl
    · rw [piece_cut (by decide) ha.strip]
      unfold paramVal paramOp
      rw [if_neg (by decide), if_neg (by decide), if_neg (by decide), if_neg (by decide), if_neg (by decide), if_neg (by decide),
        if_neg (by decide), if_neg (by decide), if_neg (by decide), if_pos rfl, if_pos hm]
      rfl
  | watershed h1 h2 =>
    rw [piece_cut (by decide) h2]
    unfold paramVal paramOp
    rw [if_neg (by decide), if_neg (by decide), if_neg (by decide), if_neg (by decide), if_pos rfl]
    rfl
  | crop hw0 hw1 hh0 hh1 hx hy =>
    rename_i w h x y
    have hword : Word (dec w ++ 'x' :: (dec h ++ (signed x ++ signed y))) := by
      refine (dec_word w).append ?_
      intro c hc
      rcases List.mem_cons.1 hc with rfl | hc
      · decide
      rcases List.mem_append.1 hc with hc | hc
      · exact (dec_word h).2 c hc
      rcases List.mem_append.1 hc with hc | hc
      · exact signed_chars x c hc
      · exact signed_chars y c hc
    rw [piece_cut (by decide) hword.strip]
    unfold paramVal paramOp
    rw [if_neg (by decide), if_neg (by decide), if_neg (by decide), if_neg (by decide), if_neg (by decide), if_pos rfl,
      geometry_size_x_y hl ⟨hw0, hw1⟩ ⟨hh0, hh1⟩ hx hy]
    rfl
  | extractTo hw0 hw1 hh0 hh1 =>
    rename_i w h
    have hword : Word (dec w ++ 'x' :: dec h) := by
      refine (dec_word w).append ?_
      intro c hc
      rcases List.mem_cons.1 hc with rfl | hc
      · decide
      exact (dec_word h).2 c hc
    rw [piece_cut (by decide) hword.strip]
    unfold paramVal extractToVal
    rw [if_neg (by decide), if_pos rfl, cutAt_of _ (dec_no_x w)]
    dsimp only
    rw [trim_eq, trim_eq, (dec_word w).strip, (dec_word h).strip, atoi_dec hl hw1, ok_bind, atoi_dec hl hh1, ok_bind]
    have e1 : u32OfInt (w : Int) = w := by rw [u32OfInt_eq] <;> simp <;> omega
    have e2 : u32OfInt (h : Int) = h := by rw [u32OfInt_eq] <;> simp <;> omega
    rw [e1, e2, if_pos ⟨hw0, hh0⟩]
    rfl
  | border hc ha hpos =>
    rw [piece_cut (by decide) (strip_two hc ha)]
    unfold paramVal paramOp
    rw [if_neg (by decide), if_neg (by decide), if_neg (by decide), if_neg (by decide), if_neg (by decide), if_neg (by decide),
      if_neg (by decide), if_neg (by decide), if_pos rfl, cutAt_of _ hc.space]
    dsimp only
    rw [trim_eq, trim_eq, hc.strip, ha.strip, if_pos hpos]
    rfl
  | shape hm hc hr hx hxx hy =>
    rename_i name color r x y
    have hpos : Word (x ++ 'x' :: y) := by
      refine hx.append ?_
      intro c hc
      rcases List.mem_cons.1 hc with rfl | hc
      · decide
      exact hy.2 c hc
    have hn : ' ' ∉ name := by
      rcases List.mem_cons.1 hm with rfl | hm
      · decide
      · rw [List.mem_singleton.1 hm]; decide
    have hrest := strip_two hr hpos
    have hall : strip (color ++ ' ' :: (r ++ ' ' :: (x ++ 'x' :: y))) = color ++ ' ' :: (r ++ ' ' :: (x ++ 'x' :: y)) := by
      have := strip_between (m := ' ' :: (r ++ [' '])) hc hpos
      simpa using this
    rw [piece_cut hn hall]
    unfold paramVal
    rw [if_pos (by simpa using hm)]
    unfold shapeVal
    rw [cutAt_of _ hc.space]
    dsimp only
    rw [trim_eq, trim_eq, hrest, cutAt_of _ hr.space]
    dsimp only
    rw [trim_eq, hpos.strip, cutAt_of _ hxx]
    dsimp only
    rw [trim_eq, trim_eq, trim_eq, hr.strip, hx.strip, hy.strip, hc.strip]
    rfl

/-- Every piece has a value, unless the numbers of `extract_document_to` are out of range. -/
theorem piece_defined {L : Lib} (hl : 2147483647 ≤ L.lmax) {pc : List Char}
    (hx : firstWord pc = "extract_document_to".toList → ∃ o, Means L.atof L.fmt pc o) : ∃ v, pieceVal L pc = .ok v := by
  by_cases h : firstWord pc = "extract_document_to".toList
  · obtain ⟨o, ho⟩ := hx h
    exact ⟨_, piece_means hl ho⟩
  · unfold pieceVal
    cases hc : cutAt ' ' pc with
    | none => exact ⟨_, rfl⟩
    | some np =>
      obtain ⟨name, ps⟩ := np
      have hname : name ≠ "extract_document_to".toList := by
        intro e
        apply h
        obtain ⟨e1, e2⟩ := cutAt_some hc
        unfold firstWord
        rw [e1, (takeWhile_of_all (p := (· ≠ ' ')) (b := ' ' :: ps) (fun x hx => by simpa using fun (e : x = ' ') => e2 (e ▸ hx))
          (by simp)).1]
        exact e
      dsimp only
      unfold paramVal
      by_cases h1 : name = "circle".toList ∨ name = "disk".toList
      · rw [if_pos h1]
        exact ⟨_, rfl⟩
      · rw [if_neg h1, if_neg hname]
        unfold paramOp
        rw [if_neg h1, if_neg hname]
        split_ifs
        · exact ⟨_, rfl⟩
        · exact ⟨_, rfl⟩
        · exact ⟨_, rfl⟩
        · cases parse_geometry L.lmax (some (trim_whitespace ps)) with
          | none => exact ⟨_, rfl⟩
          | some q => exact ⟨_, rfl⟩
        · exact ⟨_, rfl⟩
        · cases cutAt ' ' (trim_whitespace ps) with
          | none => exact ⟨_, rfl⟩
          | some q =>
            dsimp only
            split_ifs
            · exact ⟨_, rfl⟩
            · exact ⟨_, rfl⟩
        · exact ⟨_, rfl⟩
        · exact ⟨_, rfl⟩
        · exact ⟨_, rfl⟩

/-- The name of a parsed operation is the first word of its piece. -/
theorem piece_name {L : Lib} {pc : List Char} {o : PipelineOp} (h : pieceVal L pc = .ok (some o)) : o.operation = firstWord pc := by
  unfold pieceVal at h
  cases hc : cutAt ' ' pc with
  | none =>
    rw [hc] at h
    cases h
    unfold firstWord
    have := cutAt_none_iff.1 hc
    have h2 := (takeWhile_of_all (p := (· ≠ ' ')) (a := pc) (b := []) (fun x hx => by simpa using fun (e : x = ' ') => this (e ▸ hx)) (by simp)).1
    rw [List.append_nil] at h2
    exact h2.symm
  | some np =>
    obtain ⟨name, ps⟩ := np
    rw [hc] at h
    obtain ⟨e1, e2⟩ := cutAt_some hc
    have hfw : firstWord pc = name := by
      unfold firstWord
      rw [e1]
      exact (takeWhile_of_all (p := (· ≠ ' ')) (b := ' ' :: ps) (fun x hx => by simpa using fun (e : x = ' ') => e2 (e ▸ hx)) (by simp)).1
    rw [hfw]
    dsimp only at h
    generalize trim_whitespace ps = q at h
    have num : ∀ q, (numericOp L name q).operation = name := by
      intro q
      unfold numericOp
      cases cutAt ' ' q <;> rfl
    unfold paramVal at h
    split_ifs at h with h1 h2
    · have h' : shapeVal L name q = some o := Except.ok.inj h
      unfold shapeVal at h'
      split at h'
      · cases h'
      split at h'
      · cases h'
      split at h'
      · cases h'
      cases h'
      rfl
    · unfold extractToVal at h
      split at h
      · cases h
      · rename_i a b _
        cases ha : atoi L.lmax (trim_whitespace a) with
        | error e => rw [ha] at h; cases h
        | ok w =>
          rw [ha, ok_bind] at h
          cases hb : atoi L.lmax (trim_whitespace b) with
          | error e => rw [hb] at h; cases h
          | ok v =>
            rw [hb, ok_bind] at h
            split_ifs at h
            · cases h; rfl
            · cases h
    · unfold paramOp at h
      rw [if_neg h1, if_neg h2] at h
      split_ifs at h
      · cases h; rfl
      · cases h; exact num q
      · cases h; rfl
      · cases hg : parse_geometry L.lmax (some q) with
        | none => rw [hg] at h; cases h
        | some r => rw [hg] at h; cases h; rfl
      · cases h; rfl
      · cases hg : cutAt ' ' q with
        | none => rw [hg] at h; cases h
        | some r =>
          rw [hg] at h
          dsimp only at h
          split_ifs at h
          · cases h; rfl
          · cases h
      · cases h; rfl
      · cases h; rfl
      · cases h; exact num q

/-- The size computed for the work buffer. -/
theorem total_eq (P : Plat) {args : List (List Char)} (h : args.foldl (fun t a => t + (a.length + 2)) 0 + 1 ≤ P.szMax) :
    P.sz (args.foldl (fun t a => P.sz (t + P.sz (a.length + 2))) 0 + 1) = args.foldl (fun t a => t + (a.length + 2)) 0 + 1 := by
  have mono : ∀ (l : List (List Char)) (s : Nat), s ≤ l.foldl (fun t a => t + (a.length + 2)) s := by
    intro l
    induction l with
    | nil => intro s; exact le_refl _
    | cons a t ih => intro s; rw [List.foldl_cons]; exact le_trans (by omega) (ih _)
  have key : ∀ (l : List (List Char)) (s : Nat), l.foldl (fun t a => t + (a.length + 2)) s ≤ P.szMax →
      l.foldl (fun t a => P.sz (t + P.sz (a.length + 2))) s = l.foldl (fun t a => t + (a.length + 2)) s := by
    intro l
    induction l with
    | nil => intro s _; rfl
    | cons a t ih =>
      intro s hs
      rw [List.foldl_cons] at hs
      have := mono t (s + (a.length + 2))
      rw [List.foldl_cons, List.foldl_cons, P.sz_eq' (show a.length + 2 ≤ P.szMax by omega), P.sz_eq' (by omega)]
      exact ih _ hs
  rw [key args 0 (by omega)]
  exact P.sz_eq' h

/-- The arguments of a call: C strings whose joint size fits `size_t`. -/
structure Args (P : Plat) (args : List (List Char)) : Prop where
  strings : ∀ a ∈ args, nul ∉ a
  size : args.foldl (fun t a => t + (a.length + 2)) 0 + 1 ≤ P.szMax

/-- C65: the parser runs without fault inside its buffers; what it stores depends only on the pieces of the joined text. -/
theorem parse_pipeline_runs_partial (P : Plat) {L : Lib} (hl : 2147483647 ≤ L.lmax) {args : List (List Char)} (ha : Args P args)
    {p : Pipeline} (hp' : PipeOk p) (hn : p.ops.length + (pieces (joined args)).length < 1073741824)
    (hx : ∀ pc ∈ pieces (joined args), firstWord pc = "extract_document_to".toList → ∃ o, Means L.atof L.fmt pc o)
    {hp h : Heap} {X : List Nat} (t : Track hp h (p.opsId.toList ++ p.pid :: X)) (hf : ∀ i, hp.fails i = false) :
    HOk (parse_pipeline P L args p) h fun r h' => r.1 = (runVal L (pieces (joined args))).1 ∧
      r.2.ops = p.ops ++ (runVal L (pieces (joined args))).2.map stored ∧ PipeOk r.2 ∧
      Track hp h' (r.2.opsId.toList ++ r.2.pid :: X) := by
  unfold parse_pipeline
  dsimp only
  rw [total_eq P ha.size]
  refine HOk.bind (t.malloc hf) ?_
  rintro r h1 ⟨i, rfl, t1⟩
  dsimp only
  obtain ⟨rest, e⟩ := joinArgs_ok ha.strings (m := args.foldl (fun t a => t + (a.length + 2)) 0 + 1)
    (Nat.lt_succ_of_le (joined_length args))
  have hnul : nul ∉ joined args := joined_nul ha.strings
  refine HOk.bind (t1.use (v := joined args) (ids := [i]) (by simp) (by rw [e, ok_bind, cstr_of hnul])) ?_
  rintro text h2 ⟨rfl, rfl⟩
  rw [parsePieces_eq, ← pieces_eq]
  have t1' : Track hp h2 (p.opsId.toList ++ p.pid :: (i :: X)) := t1.perm
    (List.perm_middle.symm.trans ((List.Perm.swap ..).append_left _))
  refine HOk.bind (runPieces_ok P L _ hp' hn (fun pc hpc => piece_defined hl (hx pc hpc)) t1' hf) ?_
  rintro r h3 ⟨e1, e2, hr, t3⟩
  refine HOk.bind (t3.free (i := i) (Y := r.2.opsId.toList ++ r.2.pid :: X) ?_) ?_
  · exact ((List.Perm.swap ..).append_left _).trans List.perm_middle
  · intro _ h4 t4
    exact HOk.pure ⟨e1, e2, hr, t4⟩

/-- The list of operations made by `create_pipeline`. -/
theorem create_pipeline_ok {hp h : Heap} {X : List Nat} (t : Track hp h X) (hf : ∀ i, hp.fails i = false) :
    HOk create_pipeline h fun p h' => p.ops = [] ∧ PipeOk p ∧ Track hp h' (p.opsId.toList ++ p.pid :: X) := by
  unfold create_pipeline
  refine HOk.bind (t.malloc hf) ?_
  rintro r h1 ⟨i, rfl, t1⟩
  dsimp only
  refine HOk.bind (t1.malloc hf) ?_
  rintro r h2 ⟨j, rfl, t2⟩
  exact HOk.pure ⟨rfl, ⟨⟨_, rfl⟩, show (1 : Int) ≤ 8 by decide, show (0 : Int) ≤ 8 by decide, Or.inl (le_refl (8 : Int))⟩, t2⟩

theorem runVal_means {L : Lib} (hl : 2147483647 ≤ L.lmax) {ps : List (List Char)} {os : List PipelineOp}
    (h : List.Forall₂ (Means L.atof L.fmt) ps os) : runVal L ps = (true, os) := by
  induction h with
  | nil => rfl
  | cons h1 _ ih =>
    unfold runVal
    rw [piece_means hl h1, ih]

/-- C65: if every piece of the text denotes an operation, these operations are stored, in order, and nothing else. -/
theorem parse_pipeline_means (P : Plat) {L : Lib} (hl : 2147483647 ≤ L.lmax) {args : List (List Char)} (ha : Args P args)
    {os : List PipelineOp} (hm : List.Forall₂ (Means L.atof L.fmt) (pieces (joined args)) os) (hn : os.length < 1073741824)
    {hp : Heap} (hf : ∀ i, hp.fails i = false) :
    HOk (create_pipeline >>= parse_pipeline P L args) hp fun r h' =>
      r.1 = true ∧ r.2.ops = os.map stored ∧ h'.live.Perm (r.2.opsId.toList ++ r.2.pid :: hp.live) := by
  refine HOk.bind (create_pipeline_ok (Track.start hp) hf) ?_
  rintro p h1 ⟨e, hp', t⟩
  refine (parse_pipeline_runs_partial P hl ha hp' (by rw [e, hm.length_eq]; simpa using hn) ?_ t hf).mono ?_
  · intro pc hpc _
    obtain ⟨o, -, ho⟩ := List.forall₂_iff_get.1 hm |>.2 |> fun h => (show ∃ o, o ∈ os ∧ Means L.atof L.fmt pc o from by
      obtain ⟨i, hi, rfl⟩ := List.getElem_of_mem hpc
      have hi' : i < os.length := by rw [← hm.length_eq]; exact hi
      exact ⟨os[i], List.getElem_mem .., h i hi hi'⟩)
    exact ⟨o, ho⟩
  · rintro r h2 ⟨e1, e2, -, t2⟩
    rw [runVal_means hl hm] at e1 e2
    rw [e] at e2
    exact ⟨e1, by simpa using e2, by simpa using t2.live⟩

theorem runVal_names (L : Lib) (ps : List (List Char)) (h : (runVal L ps).1 = true) :
    (runVal L ps).2.map PipelineOp.operation = ps.map firstWord := by
  induction ps with
  | nil => rfl
  | cons pc rest ih =>
    unfold runVal at h ⊢
    split at h
    · rename_i o ho
      dsimp only at h ⊢
      rw [List.map_cons, List.map_cons, ih h, piece_name ho]
    · cases h

/-- C65: whenever the text is accepted there is exactly one operation per piece, in the order of the pieces, and its name is the
first word of the piece (cut to 31 characters). -/
theorem parse_pipeline_names (P : Plat) {L : Lib} (hl : 2147483647 ≤ L.lmax) {args : List (List Char)} (ha : Args P args)
    (hn : (pieces (joined args)).length < 1073741824)
    (hx : ∀ pc ∈ pieces (joined args), firstWord pc = "extract_document_to".toList → ∃ o, Means L.atof L.fmt pc o)
    {hp : Heap} (hf : ∀ i, hp.fails i = false) :
    HOk (create_pipeline >>= parse_pipeline P L args) hp fun r h' =>
      (r.1 = true → r.2.ops.map PipelineOp.operation = (pieces (joined args)).map fun pc => (firstWord pc).take 31) ∧
      h'.live.Perm (r.2.opsId.toList ++ r.2.pid :: hp.live) := by
  refine HOk.bind (create_pipeline_ok (Track.start hp) hf) ?_
  rintro p h1 ⟨e, hp', t⟩
  refine (parse_pipeline_runs_partial P hl ha hp' (by rw [e]; simpa using hn) hx t hf).mono ?_
  rintro r h2 ⟨e1, e2, -, t2⟩
  refine ⟨?_, by simpa using t2.live⟩
  intro hr
  rw [e1] at hr
  rw [e2, e, List.nil_append, List.map_map]
  have := congrArg (List.map (List.take 31)) (runVal_names L _ hr)
  rw [List.map_map, List.map_map] at this
  exact this

/-- C65: cutting the text into several arguments at spaces changes nothing. -/
theorem parse_pipeline_arguments (P : Plat) {L : Lib} (hl : 2147483647 ≤ L.lmax) {args args' : List (List Char)} (ha : Args P args)
    (ha' : Args P args') (hj : joined args = joined args') (hn : (pieces (joined args)).length < 1073741824)
    (hx : ∀ pc ∈ pieces (joined args), firstWord pc = "extract_document_to".toList → ∃ o, Means L.atof L.fmt pc o)
    {hp : Heap} (hf : ∀ i, hp.fails i = false) :
    ∃ r h r' h', (create_pipeline >>= parse_pipeline P L args) hp = .ok (r, h) ∧
      (create_pipeline >>= parse_pipeline P L args') hp = .ok (r', h') ∧ r.1 = r'.1 ∧ r.2.ops = r'.2.ops := by
  have key : ∀ as : List (List Char), Args P as → joined as = joined args →
      HOk (create_pipeline >>= parse_pipeline P L as) hp fun r _ =>
        r.1 = (runVal L (pieces (joined args))).1 ∧ r.2.ops = (runVal L (pieces (joined args))).2.map stored := by
    intro as has e'
    refine HOk.bind (create_pipeline_ok (Track.start hp) hf) ?_
    rintro p h1 ⟨e, hp', t⟩
    refine (parse_pipeline_runs_partial P hl has hp' (by rw [e, e']; simpa using hn) (by rw [e']; exact hx) t hf).mono ?_
    rintro r h2 ⟨e1, e2, -, -⟩
    rw [e'] at e1 e2
    rw [e, List.nil_append] at e2
    exact ⟨e1, e2⟩
  obtain ⟨r, h, e, h1, h2⟩ := key args ha rfl
  obtain ⟨r', h', e', h1', h2'⟩ := key args' ha' hj.symm
  exact ⟨r, h, r', h', e, e', h1.trans h1'.symm, h2.trans h2'.symm⟩

/-- A case of the hypotheses: two arguments, three pieces (one of them blank, one in parentheses). -/
example : pieces (joined ["grayscale, ,".toList, "( blur 5 )".toList]) = ["grayscale".toList, "blur 5".toList] ∧
    Args Plat.lp64 ["grayscale, ,".toList, "( blur 5 )".toList] ∧
    ∀ (atof : List Char → Dbl) (fmt : Dbl → List Char), List.Forall₂ (Means atof fmt) ["grayscale".toList, "blur 5".toList]
      [{ operation := "grayscale".toList }, { operation := "blur".toList, param := atof ['5'], has_param := true }] := by
  refine ⟨by decide +kernel, ⟨by decide, by decide +kernel⟩, ?_⟩
  intro atof fmt
  refine List.Forall₂.cons (Means.bare ⟨by decide, by decide⟩) (List.Forall₂.cons ?_ List.Forall₂.nil)
  exact Means.one (name := "blur".toList) (a := ['5']) ⟨by decide, by decide⟩ (by decide) ⟨by decide, by decide⟩

/-- Numbers of `extract_document_to` beyond `int` are undefined behaviour of `atoi`. -/
theorem extract_to_overflows (atof : List Char → Dbl) (fmt : Dbl → List Char) (hp : Heap) (hf : hp.fails hp.next = false) :
    paramOp ⟨atof, fmt, long64⟩ "extract_document_to".toList "9999999999x600".toList hp = .error (.comp .signedOverflow) := by
  unfold paramOp
  rw [if_neg (by decide), if_neg (by decide), if_neg (by decide), if_neg (by decide), if_pos rfl]
  unfold extractToOp
  have e : strdup "9999999999x600".toList hp = .ok (hp.next, { hp with next := hp.next + 1, live := hp.next :: hp.live }) := by
    unfold strdup
    rw [hm_bind]
    have : malloc Char ("9999999999x600".toList.length + 1) hp = .ok (some ⟨hp.next, List.replicate 15 none⟩,
        { hp with next := hp.next + 1, live := hp.next :: hp.live }) := by
      unfold malloc
      rw [hf]
      rfl
    rw [this]
    rfl
  rw [hm_bind, e]
  rfl

/-- Negative numbers are taken for large ones. -/
theorem extract_to_negative (atof : List Char → Dbl) (fmt : Dbl → List Char) :
    pieceVal ⟨atof, fmt, long64⟩ "extract_document_to -5x600".toList = .ok (some
      { operation := "extract_document_to".toList, param := .fin 4294967291, has_param := true, param2 := .fin 600,
        has_param2 := true }) := by
  rfl

/-- A name that is not matched by the first word alone: the separator has to be a space. -/
theorem tab_is_no_separator (L : Lib) : pieceVal L "blur\t5".toList = .ok (some { operation := "blur\t5".toList }) := rfl

end FlatCV.Props
