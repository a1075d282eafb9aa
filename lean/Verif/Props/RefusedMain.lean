/-
The program is called with a file that is not an image (C152).
-/
import Verif.Props.CliWhole
import Verif.Props.ImageFormat

namespace FlatCV.Props
open Model Spec

variable {P : Plat} {M : MathLib} {L : Lib} {W : World}

/-- The decoder that `main` calls for the file `path` is the one of stb_image with all its formats: whenever that returns, `main` gets its result. -/
def DecodesAll (W : World) (pm : PngMem) (mem : JpegMem) (cm : Nat → Bool) (nm : PnmMem) (feof : Ctx → Bool) (other : Format → CM (Option Model.Loaded))
    (path : List Char) (file : List UInt8) : Prop :=
  ∀ r, stbi_load_all pm mem cm nm feof other file = .ok r → W.load path = r.map fun l => (l.x, l.y, l.data.map fun b => b.getD 0)

theorem pipeline_released {p : Pipeline} {hp h : Heap} (t : Track hp h (p.opsId.toList ++ [p.pid])) :
    HOk (free_pipeline p) h fun _ h' => h'.live.Perm hp.live := by
  unfold free_pipeline
  refine HOk.bind (t.use (ids := [p.pid]) (v := ()) (by simp) rfl) ?_
  rintro _ g ⟨-, rfl⟩
  cases hid : p.opsId with
  | none =>
    rw [hid] at t
    refine HOk.bind (P := fun _ h' => h' = g) (HOk.pure rfl) ?_
    rintro _ _ rfl
    refine (t.free (i := p.pid) (Y := []) (List.Perm.refl _)).mono ?_
    intro _ h9 t9
    simpa using t9.live
  | some j =>
    rw [hid] at t
    refine HOk.bind (t.free (i := j) (Y := [p.pid]) (List.Perm.refl _)) ?_
    intro _ h8 t8
    refine (t8.free (i := p.pid) (Y := []) (List.Perm.refl _)).mono ?_
    intro _ h9 t9
    simpa using t9.live

/-- C152: if the decoder refuses the input file, the program returns 1 whatever the pipeline, valid or not (the condition on
`extract_document_to` is the one of C65); it writes no file, and has released everything. -/
theorem main_refused (hl : 2147483647 ≤ L.lmax) {prog inp out : List Char} {args : List (List Char)} (ha : Args P args) (hargs : args ≠ [])
    (hn : (pieces (joined args)).length < 1073741824)
    (hx : ∀ pc ∈ pieces (joined args), firstWord pc = "extract_document_to".toList → ∃ o, Means L.atof L.fmt pc o)
    (hload : W.load inp = none) {hp : Heap} (hf : ∀ j, hp.fails j = false) :
    HOk (main P M L W (prog :: inp :: (args ++ [out]))) hp fun r h' => r = (1, none) ∧ h'.live.Perm hp.live := by
  have hlen : 0 < args.length := List.length_pos_iff.2 hargs
  unfold main
  have e1 : (prog :: inp :: (args ++ [out])).length = args.length + 3 := by simp
  have e2 : (prog :: inp :: (args ++ [out])).getD 1 [] = inp := rfl
  have e4 : ((prog :: inp :: (args ++ [out])).drop 2).dropLast = args := by simp
  rw [if_neg (by omega)]
  dsimp only
  have hdet : ¬ ((prog :: inp :: (args ++ [out])).length = 3 ∧ (prog :: inp :: (args ++ [out])).getD 2 [] = "detect_corners".toList) := by
    omega
  rw [if_neg (by omega), e2, if_neg hdet, e4]
  refine HOk.bind (create_pipeline_ok (Track.start hp) hf) ?_
  rintro p0 h1 ⟨e0, hp0, t1⟩
  refine HOk.bind (parse_pipeline_runs_partial P hl ha hp0 (by rw [e0]; simpa using hn) hx t1 hf) ?_
  rintro ⟨ok, pl⟩ h2 ⟨-, -, -, t2⟩
  dsimp only at t2 ⊢
  have rel : HOk (free_pipeline pl >>= fun _ => (pure (1, none) : HM (Int × Option Saved))) h2 fun r h' => r = (1, none) ∧ h'.live.Perm hp.live := by
    refine HOk.bind (pipeline_released t2) ?_
    intro _ h3 h
    exact HOk.pure ⟨rfl, h⟩
  split
  · exact rel
  · refine HOk.bind (P := fun r h' => r = none ∧ h' = h2) ?_ ?_
    · rw [loadImage, hload]
      exact HOk.pure ⟨rfl, rfl⟩
    · rintro _ _ ⟨rfl, rfl⟩
      exact rel

/-- C152: in particular for a text file. -/
theorem main_text_refused (hl : 2147483647 ≤ L.lmax) {prog inp out : List Char} {args : List (List Char)} (ha : Args P args) (hargs : args ≠ [])
    (hn : (pieces (joined args)).length < 1073741824)
    (hx : ∀ pc ∈ pieces (joined args), firstWord pc = "extract_document_to".toList → ∃ o, Means L.atof L.fmt pc o)
    {pm : PngMem} {mem : JpegMem} {cm : Nat → Bool} {nm : PnmMem} {feof : Ctx → Bool} {other : Format → CM (Option Model.Loaded)} {file : List UInt8}
    (hd : DecodesAll W pm mem cm nm feof other inp file) (hfi : file ≠ []) (ht : ∀ b ∈ file, 9 ≤ b ∧ b < 127) (hs : ∀ s ∈ signatures, ¬ s <+: file)
    {hp : Heap} (hf : ∀ j, hp.fails j = false) :
    HOk (main P M L W (prog :: inp :: (args ++ [out]))) hp fun r h' => r = (1, none) ∧ h'.live.Perm hp.live :=
  main_refused hl ha hargs hn hx (hd _ (text_refused hfi ht hs pm mem cm nm feof other)) hf

/-- C152: and for an empty file. -/
theorem main_empty_refused (hl : 2147483647 ≤ L.lmax) {prog inp out : List Char} {args : List (List Char)} (ha : Args P args) (hargs : args ≠ [])
    (hn : (pieces (joined args)).length < 1073741824)
    (hx : ∀ pc ∈ pieces (joined args), firstWord pc = "extract_document_to".toList → ∃ o, Means L.atof L.fmt pc o)
    {pm : PngMem} {mem : JpegMem} {cm : Nat → Bool} {nm : PnmMem} {feof : Ctx → Bool} {other : Format → CM (Option Model.Loaded)}
    (hd : DecodesAll W pm mem cm nm feof other inp []) {hp : Heap} (hf : ∀ j, hp.fails j = false) :
    HOk (main P M L W (prog :: inp :: (args ++ [out]))) hp fun r h' => r = (1, none) ∧ h'.live.Perm hp.live :=
  main_refused hl ha hargs hn hx (hd _ (empty_refused pm mem cm nm feof other)) hf

/-! ### A case -/

/-- A world in which the file `notes.txt` is the text `hello`. -/
def helloWorld : World := ⟨fun _ => none, fun _ => some hello, fun _ => true⟩

theorem helloWorld_decodes : DecodesAll helloWorld allPng allJpeg allCoef allPnm atEnd (fun _ => .ok none) "notes.txt".toList hello := by
  intro r hr
  rw [text_refused (by decide) (by decide) (by decide +kernel) allPng allJpeg allCoef allPnm atEnd] at hr
  rw [← Except.ok.inj hr]
  rfl

/-- `flatcv notes.txt crop 1x1+1+0 out.png` fails. -/
example (M : MathLib) : HOk (main Plat.lp64 M lib90 helloWorld ("flatcv".toList :: "notes.txt".toList :: (["crop", "1x1+1+0"].map String.toList ++ ["out.png".toList])))
    Heap.fresh fun r h' => r = (1, none) ∧ h'.live.Perm Heap.fresh.live :=
  main_text_refused (by decide) ⟨by decide, by decide⟩ (by decide) (by decide +kernel) (by
    have : ∀ pc ∈ pieces (joined (["crop", "1x1+1+0"].map String.toList)), firstWord pc ≠ "extract_document_to".toList := by decide +kernel
    exact fun pc h e => absurd e (this pc h)) helloWorld_decodes (by decide) (by decide) (by decide +kernel) (fun _ => rfl)

end FlatCV.Props
