/-
C108, C109: whole pipelines and the whole program do what they ask for.
-/
import Verif.Props.CliMeaning
import Verif.Props.Exif
import Verif.Props.Orient
import Verif.Spec.CliWhole

namespace FlatCV.Props
open FlatCV FlatCV.Model FlatCV.Spec

variable {P : Plat} {M : MathLib} {L : Lib} {W : World} {i : Sized} {pcs : List (List Char)} {R : Sized → Prop}

/-! ### The loop -/

theorem track_effect {hp hh h' : Heap} {X Y : List Nat} (t : Track hp hh X) (e : HeapEffect hh h' Y) : Track hp h' (Y ++ X) := by
  obtain ⟨e1, e2, e3, -⟩ := e
  refine ⟨?_, e2.trans t.fails, t.next.trans e3⟩
  rw [List.append_assoc]
  exact e1.trans (t.live.append_left Y)

/-- The rest of the loop, from a block of its own. -/
theorem runOps_leads (hex : ExpOk M.ex) (h : Leads L.atof pcs i R) : Picture P i.w i.h i.d →
    ∃ os, List.Forall₂ (Means L.atof L.fmt) pcs os ∧ (∀ op ∈ os, op.operation ∉ cornerOps) ∧ ∃ o, R o ∧ Picture P o.w o.h o.d ∧
      ∀ (hp hh : Heap) (X : List Nat) (input : Buf UInt8) (k : Nat), (∀ j, hp.fails j = false) → input.id < hp.next → hp.next ≤ k →
        k < hh.next → Track hp hh (k :: X) →
        HOk (runOps (apply_operation P M L) input (os.map stored) i.w i.h ⟨k, i.d.map some⟩ (some k)) hh fun r h' =>
          ∃ k', r = (some ⟨k', o.d.map some⟩, (o.w : Int), (o.h : Int)) ∧ hp.next ≤ k' ∧ k' < h'.next ∧ Track hp h' (k' :: X) := by
  induction h with
  | @nil i R hr =>
    intro p
    exact ⟨[], .nil, by simp, i, hr, p, fun hp hh X input k hf hi hk hk' t => HOk.pure ⟨k, rfl, hk, hk', t⟩⟩
  | @cons pc ps i Q R hs ha _ ih =>
    intro p
    obtain ⟨op, hm, hc, o1, hq, p1, mk⟩ := asks_fulfilled (P := P) hex p hs ha
    obtain ⟨os, h1, h2, o, hr, po, run⟩ := ih o1 hq p1
    refine ⟨op :: os, .cons hm h1, ?_, o, hr, po, ?_⟩
    · intro x hx
      rcases List.mem_cons.1 hx with rfl | hx
      · exact hc
      · exact h2 x hx
    intro hp hh X input k hf hi hk hk' t
    rw [List.map_cons]
    unfold runOps
    refine HOk.bind (t.use (ids := [k]) (v := i.d) (by simp) (asInput_map_some _)) ?_
    rintro _ _ ⟨rfl, rfl⟩
    refine HOk.bind (mk _ (by rw [t.fails]; exact hf)) ?_
    rintro _ h1 ⟨k1, rfl, e1⟩
    have t1 := track_effect t e1
    obtain ⟨a1, a2⟩ := e1.2.2.2 k1 (by simp)
    dsimp only
    rw [if_pos (by omega)]
    refine HOk.bind (P := fun _ h' => Track hp h' (k1 :: X) ∧ h'.next = h1.next) ?_ ?_
    · have hlive : k ∈ h1.live := t1.mem (by simp)
      obtain ⟨_, _, e, t'⟩ := t1.free (i := k) (Y := k1 :: X) (List.Perm.swap ..)
      refine ⟨_, _, e, t', ?_⟩
      unfold FlatCV.free at e
      rw [if_pos hlive] at e
      cases e
      rfl
    · rintro _ h2 ⟨t2, en⟩
      exact run hp h2 X input k1 hf hi (le_trans hk (by omega)) (by omega) t2

/-- C108: a pipeline whose pieces lead from the image `i` to results in `R` is understood as a list of operations, and unless an
allocation fails, running them on `i` returns an image in `R`.  Its block is the only new one: the intermediate images have been
released, the input has not. -/
theorem pipeline_leads (hex : ExpOk M.ex) (p : Picture P i.w i.h i.d) (hne : pcs ≠ []) (h : Leads L.atof pcs i R) :
    ∃ os, List.Forall₂ (Means L.atof L.fmt) pcs os ∧ (∀ op ∈ os, op.operation ∉ cornerOps) ∧ ∃ o, R o ∧ Picture P o.w o.h o.d ∧
      ∀ (hp : Heap) (k : Nat), (∀ j, hp.fails j = false) → k ∈ hp.live → k < hp.next →
        HOk (execute_pipeline (apply_operation P M L) i.w i.h (os.map stored) ⟨k, i.d.map some⟩) hp fun r h' =>
          ∃ k', r = (some ⟨k', o.d.map some⟩, (o.w : Int), (o.h : Int)) ∧ HeapEffect hp h' [k'] := by
  cases h with
  | nil => exact absurd rfl hne
  | @cons pc ps _ Q _ hs ha rest =>
    obtain ⟨op, hm, hc, o1, hq, p1, mk⟩ := asks_fulfilled (P := P) hex p hs ha
    obtain ⟨os, h1, h2, o, hr, po, run⟩ := runOps_leads (P := P) hex (rest o1 hq) p1
    refine ⟨op :: os, .cons hm h1, ?_, o, hr, po, ?_⟩
    · intro x hx
      rcases List.mem_cons.1 hx with rfl | hx
      · exact hc
      · exact h2 x hx
    intro hp k hf hk hk'
    unfold execute_pipeline
    rw [List.map_cons]
    unfold runOps
    refine HOk.bind (P := fun r h' => r = i.d ∧ h' = hp) ⟨_, _, ?_, rfl, rfl⟩ ?_
    · unfold use
      rw [if_pos (by simpa using hk), asInput_map_some]
    rintro _ _ ⟨rfl, rfl⟩
    refine HOk.bind (mk _ hf) ?_
    rintro _ h1 ⟨k1, rfl, e1⟩
    obtain ⟨a1, a2⟩ := e1.2.2.2 k1 (by simp)
    have t1 := track_effect (Track.start _) e1
    refine (run _ h1 [] ⟨k, i.d.map some⟩ k1 hf hk' (by omega) a2 t1).mono ?_
    rintro r h' ⟨k', rfl, b1, b2, t'⟩
    exact ⟨k', rfl, t'.live, t'.fails, t'.next, by simpa using ⟨b1, b2⟩⟩

/-! ### The program -/

theorem shown_orientation {f : Option (List UInt8)} {o : Int} (h : ShowsOrientation f o) : fcv_get_exif_orientation f = .ok o := by
  cases h with
  | unreadable => exact exif_unreadable
  | notJpeg h => exact exif_not_jpeg h
  | absent h hm => exact exif_absent h hm _
  | stored h ht => exact exif_roundtrip h _ _ ht

theorem lastDot_iff {path e : List Char} (he : '.' ∉ e) : lastDot path = some ('.' :: e) ↔ '.' :: e <:+ path := by
  unfold lastDot
  constructor
  · intro h
    split_ifs at h with hd
    have h1 : (path.reverse.takeWhile (· ≠ '.')).reverse = e := by simpa using h
    have h2 : path.reverse = path.reverse.takeWhile (· ≠ '.') ++ path.reverse.dropWhile (· ≠ '.') := (List.takeWhile_append_dropWhile ..).symm
    cases hdw : path.reverse.dropWhile (· ≠ '.') with
    | nil =>
      have := List.dropWhile_eq_nil_iff.1 hdw '.' (by simpa using hd)
      simp at this
    | cons c cs =>
      have hc : c = '.' := by
        have := List.head_dropWhile_not (p := (· ≠ '.')) (l := path.reverse) (by rw [hdw]; simp)
        simp only [hdw] at this
        simpa using of_decide_eq_false this
      rw [hdw] at h2
      refine ⟨cs.reverse, ?_⟩
      have h3 := congrArg List.reverse h2
      rw [List.reverse_reverse, List.reverse_append, h1] at h3
      rw [h3, List.reverse_cons, hc]
      simp
  · rintro ⟨t, rfl⟩
    rw [if_pos (by simp)]
    simp only [List.reverse_append, List.reverse_cons, List.append_assoc]
    rw [List.takeWhile_append_of_pos (by intro x hx; simpa using fun (e' : x = '.') => he (by simpa [e'] using hx))]
    simp

theorem jpegName_iff {path : List Char} :
    lastDot path ∈ [some ".jpg".toList, some ".jpeg".toList, some ".JPG".toList, some ".JPEG".toList] ↔ JpegName path := by
  have h1 : lastDot path = some ".jpg".toList ↔ _ := lastDot_iff (e := "jpg".toList) (by decide)
  have h2 : lastDot path = some ".jpeg".toList ↔ _ := lastDot_iff (e := "jpeg".toList) (by decide)
  have h3 : lastDot path = some ".JPG".toList ↔ _ := lastDot_iff (e := "JPG".toList) (by decide)
  have h4 : lastDot path = some ".JPEG".toList ↔ _ := lastDot_iff (e := "JPEG".toList) (by decide)
  unfold JpegName
  simp only [List.mem_cons, List.not_mem_nil, or_false]
  rw [h1, h2, h3, h4]
  constructor
  · rintro (h | h | h | h)
    · exact ⟨".jpg", by simp, h⟩
    · exact ⟨".jpeg", by simp, h⟩
    · exact ⟨".JPG", by simp, h⟩
    · exact ⟨".JPEG", by simp, h⟩
  · rintro ⟨e, rfl | rfl | rfl | rfl, h⟩
    · exact Or.inl h
    · exact Or.inr (Or.inl h)
    · exact Or.inr (Or.inr (Or.inl h))
    · exact Or.inr (Or.inr (Or.inr h))

theorem jpegOut_iff {path : List Char} :
    (lastDot path = some ".jpg".toList ∨ lastDot path = some ".jpeg".toList) ↔ JpegOut path := by
  have h1 : lastDot path = some ".jpg".toList ↔ _ := lastDot_iff (e := "jpg".toList) (by decide)
  have h2 : lastDot path = some ".jpeg".toList ↔ _ := lastDot_iff (e := "jpeg".toList) (by decide)
  rw [h1, h2]
  rfl

theorem load_track {path : List Char} {w h : Nat} {d : List UInt8} (e : W.load path = some (w, h, d)) {hp hh : Heap} {X : List Nat}
    (hf : ∀ j, hp.fails j = false) (t : Track hp hh X) :
    HOk (loadImage W path) hh fun r h' => ∃ k, r = some (⟨k, d.map some⟩, w, h) ∧ k < h'.next ∧ Track hp h' (k :: X) := by
  unfold loadImage
  rw [e]
  refine ⟨some (⟨hh.next, d.map some⟩, w, h), { hh with next := hh.next + 1, live := hh.next :: hh.live }, ?_, hh.next, rfl, Nat.lt_succ_self _,
    t.live.cons _, t.fails, t.next.trans (Nat.le_succ _)⟩
  dsimp only
  rw [hm_bind]
  unfold malloc
  rw [t.fails, hf]
  rfl

theorem orient_track {path : List Char} {w h : Nat} {d : List UInt8} (p : Picture P w h d)
    (hi : ¬ JpegName path ∧ i = ⟨w, h, d⟩ ∨
      JpegName path ∧ ∃ o, ShowsOrientation (W.file path) o ∧ (i.w, i.h) = uprightSize o w h ∧ Upright o w h d i.d)
    {hp hh : Heap} {X : List Nat} {k : Nat} (hf : ∀ j, hp.fails j = false) (hk : k < hh.next) (t : Track hp hh (k :: X)) :
    HOk (orientLoaded P W path ⟨k, d.map some⟩ w h) hh fun r h' =>
      ∃ k', r = (⟨k', i.d.map some⟩, i.w, i.h) ∧ k' < h'.next ∧ Track hp h' (k' :: X) := by
  unfold orientLoaded
  rcases hi with ⟨hj, rfl⟩ | ⟨hj, o, ho, es, hu⟩
  · rw [if_neg (fun h => hj (jpegName_iff.1 h))]
    exact HOk.pure ⟨k, rfl, hk, t⟩
  · rw [if_pos (jpegName_iff.2 hj)]
    refine HOk.bind (t.use (ids := []) (by simp) (shown_orientation ho)) ?_
    rintro _ _ ⟨rfl, rfl⟩
    have lb : Loaded P _ ⟨k, d.map some⟩ w h d := ⟨t.mem (by simp), hk, p.img, rfl⟩
    have ed : uprightImg _ w h d = i.d := Upright.unique (upright_uprightImg _ p.img.len) hu
    refine (orient_outcome (o := _) lb).mono ?_
    rintro ⟨⟨k', cells⟩, dims⟩ h' ⟨h1, h2 | h2 | h2⟩
    · obtain ⟨e1, e2, rfl⟩ := h2
      cases e1
      dsimp only at h1
      rw [h1, ← es]
      refine ⟨k, ?_, hk, t⟩
      rw [← ed]
      have : ∀ o : Int, o ≤ 1 ∨ 8 < o → uprightImg o w h d = d := by
        intro o ho
        unfold uprightImg
        split <;> first | (exfalso; omega) | rfl
      rw [this _ e2]
    · exact absurd h2.2.2.2 (t.not_oom hf)
    · obtain ⟨e1, e2, e3, e4, e5⟩ := h2
      dsimp only at h1 e1 e2 e3 e4
      rw [ed] at e1
      rw [h1, ← es, e1]
      refine ⟨k', rfl, e3, ?_, e5.trans t.fails, t.next.trans (by omega)⟩
      rw [e4]
      have := t.live.erase k
      rw [List.cons_append, List.erase_cons_head] at this
      exact this.cons _

theorem save_ok {path : List Char} {o : Sized} (p : Picture P o.w o.h o.d) (h : JpegOut path ∨ o.w < 536870912) :
    saveImage W path o.w o.h (o.d.map some) =
      .ok (if W.writable path then some ⟨path, JpegOut path, o.w, o.h, o.d⟩ else none) := by
  have hn : ((o.w : Int) * o.h * 4).toNat = o.d.length := by
    rw [p.img.len]
    exact_mod_cast Int.toNat_natCast (o.w * o.h * 4)
  have hj : (decide (lastDot path = some ".jpg".toList ∨ lastDot path = some ".jpeg".toList)) = decide (JpegOut path) :=
    decide_eq_decide.2 jpegOut_iff
  have rest : (if ((o.w : Int) * o.h * 4).toNat ≤ (o.d.map some).length then do
      let d ← asInput ((o.d.map some).take ((o.w : Int) * o.h * 4).toNat)
      if W.writable path then pure (some ⟨path, decide (lastDot path = some ".jpg".toList ∨ lastDot path = some ".jpeg".toList), o.w, o.h, d⟩)
        else pure none
    else .error .oobRead : CM (Option Saved)) = .ok (if W.writable path then some ⟨path, JpegOut path, o.w, o.h, o.d⟩ else none) := by
    rw [hn, List.length_map, if_pos (le_refl _), List.take_of_length_le (by simp), asInput_map_some, ok_bind, hj]
    split <;> rfl
  unfold saveImage
  dsimp only
  split
  · exact rest
  · rename_i hnj
    have hw : o.w < 536870912 := h.resolve_left fun hh => hnj (jpegOut_iff.2 hh)
    rw [i32_ok (by unfold IsI32; omega), ok_bind]
    exact rest

/-- As `main_leads` below, with the size of the data. -/
theorem main_leads_picture (hl : 2147483647 ≤ L.lmax) (hex : ExpOk M.ex) {prog inp out : List Char} {args : List (List Char)} (ha : Args P args)
    (hn : (pieces (joined args)).length < 1073741824) (hne : pieces (joined args) ≠ [])
    (ho : Opens W inp i) (h : Leads L.atof (pieces (joined args)) i R) (hR : JpegOut out ∨ ∀ o, R o → o.w < 536870912)
    {hp : Heap} (hf : ∀ j, hp.fails j = false) :
    HOk (main P M L W (prog :: inp :: (args ++ [out]))) hp fun r h' => h'.live.Perm hp.live ∧ ∃ o, R o ∧
      Picture P o.w o.h o.d ∧ r = if W.writable out then (0, some ⟨out, JpegOut out, o.w, o.h, o.d⟩) else (1, none) := by
  have hargs : args ≠ [] := by
    rintro rfl
    exact hne rfl
  have hlen : 0 < args.length := List.length_pos_iff.2 hargs
  obtain ⟨w, v, d, eload, w0, v0, hd, hs, hi⟩ := ho
  have p : Picture P w v d := picture_of w0 v0 hd (by omega)
  have pi : Picture P i.w i.h i.d := by
    rcases hi with ⟨-, rfl⟩ | ⟨-, o, -, es, hu⟩
    · exact p
    · have hl := hu.1
      unfold uprightSize at es
      split at es
      · obtain ⟨e1, e2⟩ := Prod.mk.inj es
        rw [e1, e2]
        exact picture_of v0 w0 (by rw [hl, Nat.mul_comm w v]) (by rw [Nat.mul_comm]; omega)
      · obtain ⟨e1, e2⟩ := Prod.mk.inj es
        rw [e1, e2]
        exact picture_of w0 v0 hl (by omega)
  obtain ⟨os, hm, hnc, o, hr, po, run⟩ := pipeline_leads (P := P) (M := M) hex pi hne h
  unfold main
  have e1 : (prog :: inp :: (args ++ [out])).length = args.length + 3 := by simp
  have e2 : (prog :: inp :: (args ++ [out])).getD 1 [] = inp := rfl
  have e3 : (prog :: inp :: (args ++ [out])).getLastD [] = out := by simp [List.getLastD, List.getLast?_append]
  have e4 : ((prog :: inp :: (args ++ [out])).drop 2).dropLast = args := by simp
  rw [if_neg (by omega)]
  dsimp only
  rw [if_neg (by omega), e2, e3]
  have hdet : ¬ ((prog :: inp :: (args ++ [out])).length = 3 ∧ (prog :: inp :: (args ++ [out])).getD 2 [] = "detect_corners".toList) := by
    omega
  rw [if_neg hdet, e4]
  refine HOk.bind (create_pipeline_ok (Track.start hp) hf) ?_
  rintro p0 h1 ⟨e0, hp0, t1⟩
  refine HOk.bind (parse_pipeline_runs_partial P hl ha hp0 (by rw [e0]; simpa using hn) ?_ t1 hf) ?_
  · intro pc hpc _
    obtain ⟨j, hj, rfl⟩ := List.getElem_of_mem hpc
    have := (List.forall₂_iff_get.1 hm).2 j hj (by rw [← hm.length_eq]; exact hj)
    exact ⟨_, this⟩
  rintro ⟨ok, pl⟩ h2 ⟨a1, a2, -, t2⟩
  rw [runVal_means hl hm] at a1 a2
  rw [e0, List.nil_append] at a2
  dsimp only at a1 a2 t2 ⊢
  have hops : pl.ops ≠ [] := by
    rw [a2]
    intro e
    have := hm.length_eq
    rw [List.map_eq_nil_iff.1 e] at this
    exact hne (List.length_eq_zero_iff.1 this)
  rw [if_neg (by rintro (h | h); · rw [a1] at h; cases h
                 · exact hops h)]
  refine HOk.bind (load_track eload hf t2) ?_
  rintro _ h3 ⟨k, rfl, hk, t3⟩
  dsimp only
  refine HOk.bind (orient_track p hi hf hk t3) ?_
  rintro _ h4 ⟨k', rfl, hk', t4⟩
  dsimp only
  rw [a2]
  refine HOk.bind (run h4 k' (by rw [t4.fails]; exact hf) (t4.mem (by simp)) hk') ?_
  rintro _ h5 ⟨r, rfl, e5⟩
  have t5 := track_effect t4 e5
  have hrk : r ≠ k' := by
    have := (e5.2.2.2 r (by simp)).1
    omega
  dsimp only
  rw [if_neg hdet]
  refine HOk.bind (t5.use (ids := [r]) (by simp) (save_ok po (hR.imp id fun h => h o hr))) ?_
  rintro _ g5 ⟨rfl, rfl⟩
  have rel : HOk (releaseAll pl ⟨k', i.d.map some⟩ ⟨r, o.d.map some⟩) g5 fun _ h' => h'.live.Perm hp.live := by
    unfold releaseAll
    rw [if_pos hrk]
    refine HOk.bind (t5.free (i := k') (Y := r :: (pl.opsId.toList ++ [pl.pid])) (List.Perm.swap ..)) ?_
    intro _ h6 t6
    refine HOk.bind (t6.free (i := r) (Y := pl.opsId.toList ++ [pl.pid]) (List.Perm.refl _)) ?_
    intro _ h7 t7
    unfold free_pipeline
    refine HOk.bind (t7.use (ids := [pl.pid]) (v := ()) (by simp) rfl) ?_
    rintro _ g7 ⟨-, rfl⟩
    cases hid : pl.opsId with
    | none =>
      rw [hid] at t7
      refine HOk.bind (P := fun _ h' => h' = g7) (HOk.pure rfl) ?_
      rintro _ _ rfl
      refine (t7.free (i := pl.pid) (Y := []) (List.Perm.refl _)).mono ?_
      intro _ h9 t9
      simpa using t9.live
    | some j =>
      rw [hid] at t7
      refine HOk.bind (t7.free (i := j) (Y := [pl.pid]) (List.Perm.refl _)) ?_
      intro _ h8 t8
      refine (t8.free (i := pl.pid) (Y := []) (List.Perm.refl _)).mono ?_
      intro _ h9 t9
      simpa using t9.live
  refine HOk.bind rel ?_
  intro _ h6 hperm
  refine HOk.pure ⟨hperm, o, hr, po, ?_⟩
  cases W.writable out <;> rfl

/-- C109: the program is called with a file in which it sees the image `i`, with arguments whose text leads from `i` to results in
`R`, and with the name of an output file.  Unless an allocation fails it returns, everything it allocated released.  If the output
file can be written, it then contains an image in `R`, as JPEG or PNG depending on the name, and the status is 0; otherwise the
status is 1. -/
theorem main_leads (hl : 2147483647 ≤ L.lmax) (hex : ExpOk M.ex) {prog inp out : List Char} {args : List (List Char)} (ha : Args P args)
    (hn : (pieces (joined args)).length < 1073741824) (hne : pieces (joined args) ≠ [])
    (ho : Opens W inp i) (h : Leads L.atof (pieces (joined args)) i R) (hR : JpegOut out ∨ ∀ o, R o → o.w < 536870912)
    {hp : Heap} (hf : ∀ j, hp.fails j = false) :
    HOk (main P M L W (prog :: inp :: (args ++ [out]))) hp fun r h' => h'.live.Perm hp.live ∧ ∃ o, R o ∧
      r = if W.writable out then (0, some ⟨out, JpegOut out, o.w, o.h, o.d⟩) else (1, none) :=
  (main_leads_picture hl hex ha hn hne ho h hR hf).mono fun _ _ ⟨h1, o, h2, _, h3⟩ => ⟨h1, o, h2, h3⟩

/-! ### Concrete instances -/

/-- The pieces of `flip_x, rotate 90, crop 1x1+0+1` ask for the lower pixel of the flipped and rotated image. -/
theorem leads_example : Leads lib90.atof (pieces (joined (["flip_x,", "rotate", "90,", "crop", "1x1+0+1"].map String.toList)))
    ⟨2, 1, [1, 2, 3, 4, 5, 6, 7, 8]⟩ (· = ⟨1, 1, [1, 2, 3, 4]⟩) := by
  rw [show pieces (joined (["flip_x,", "rotate", "90,", "crop", "1x1+0+1"].map String.toList)) =
    ["flip_x".toList, "rotate".toList ++ ' ' :: "90".toList,
      "crop".toList ++ ' ' :: (Spec.dec 1 ++ 'x' :: (Spec.dec 1 ++ (signed 0 ++ signed 1)))] by decide +kernel]
  refine .cons (by decide) .flipX ?_
  rintro _ rfl
  refine .cons (by decide) (.rotate (k := 1) ⟨by decide, by decide⟩ (by decide) (by decide)) ?_
  rintro _ rfl
  refine .cons (by decide) (.crop (by decide) (by decide) (by decide) (by decide) (by decide) (by decide) (by decide) (by decide)) ?_
  rintro _ rfl
  exact .nil (by rw [Sized.mk.injEq]; decide +kernel)

/-- A PNG file. -/
theorem png_opens : Opens twoPixels "in.png".toList ⟨2, 1, [1, 2, 3, 4, 5, 6, 7, 8]⟩ :=
  ⟨2, 1, _, rfl, by decide, by decide, rfl, by decide, Or.inl ⟨by unfold JpegName; decide +kernel, rfl⟩⟩

/-- A photograph taken with the camera turned. -/
def photo : World where
  load _ := some (2, 1, [1, 2, 3, 4, 5, 6, 7, 8])
  file _ := some (jpegWithExif [] 0 30 tiffExample)
  writable _ := true

theorem photo_opens : Opens photo "in.JPG".toList ⟨1, 2, [1, 2, 3, 4, 5, 6, 7, 8]⟩ :=
  ⟨2, 1, _, rfl, by decide, by decide, rfl, by decide, Or.inr ⟨by unfold JpegName; decide +kernel, 6, .stored (v := 6) (by simp) tiffExample_ok, rfl,
    upright_uprightImg (d := [1, 2, 3, 4, 5, 6, 7, 8]) 6 (by decide)⟩⟩

/-- `flatcv in.png flip_x, rotate 90, crop 1x1+0+1 out.png` writes that pixel. -/
example : ∃ M : MathLib, HOk (main Plat.lp64 M lib90 twoPixels
      ("flatcv".toList :: "in.png".toList :: (["flip_x,", "rotate", "90,", "crop", "1x1+0+1"].map String.toList ++ ["out.png".toList])))
    Heap.fresh fun r h' => h'.live = [] ∧ r = (0, some ⟨"out.png".toList, false, 1, 1, [1, 2, 3, 4]⟩) := by
  obtain ⟨ex, hex⟩ := expOk_exists
  refine ⟨{ noMath with ex := ex }, (main_leads (by decide) hex ⟨by decide, by decide⟩ (by decide +kernel) (by decide +kernel) png_opens leads_example
    (Or.inr ?_) (fun _ => rfl)).mono ?_⟩
  · rintro o rfl
    decide
  · rintro r h' ⟨hperm, o, rfl, rfl⟩
    exact ⟨List.Perm.eq_nil hperm, by decide +kernel⟩

end FlatCV.Props
