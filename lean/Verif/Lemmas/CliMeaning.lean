/-
Towards C107: the value of each operation when no allocation fails.
-/
import Verif.Spec.CliMeaning
import Verif.Props.CliOps
import Verif.Props.CliHeap
import Verif.Props.Gray
import Verif.Props.Otsu
import Verif.Props.BwSmart
import Verif.Props.Blur
import Verif.Props.Resize
import Verif.Props.Sobel
import Verif.Props.Trim
import Verif.Props.Draw
import Verif.Props.Color
import Verif.Props.Histogram
import Verif.Props.Morph
import Verif.Props.Watershed

namespace FlatCV.Props
open FlatCV FlatCV.Model FlatCV.Spec

variable {P : Plat} {M : MathLib} {L : Lib} {w h : Nat} {d : List UInt8} {op : PipelineOp} {i o : Sized}

/-- If no allocation fails the result is `o`. -/
def Vals (m : HM OpResult) (o : Sized) : Prop := ∀ hp : Heap, (∀ k, hp.fails k = false) → HOk m hp fun r _ =>
  ∃ k, r = (some ⟨k, o.d.map some⟩, (o.w : Int), (o.h : Int))

theorem makes_of (ho : op.operation ∉ cornerOps) (hv : Vals (apply_operation P M L w h op d) o) :
    Makes (apply_operation P M L w h op d) o := by
  intro hp hf
  obtain ⟨r, h', e, k, rfl⟩ := hv hp hf
  exact ⟨_, h', e, k, rfl, ((apply_operation_tidy ho hp).2.2 _ _ e).1⟩

theorem not_oom {hp h' : Heap} (hf : ∀ k, hp.fails k = false) : ¬ OutOfMemory hp h' := (Track.start hp).not_oom hf

theorem vals_gives {m : HM OpResult} {w' h' : Nat} {out : List UInt8} (g : Gives m w h w' h' out) : Vals m ⟨w', h', out⟩ := by
  intro hp hf
  obtain ⟨⟨r, v⟩, h1, e, hq⟩ := g hp
  refine ⟨_, h1, e, ?_⟩
  cases r with
  | none => exact absurd hq.1 (not_oom hf)
  | some b =>
    obtain ⟨-, hc, hv⟩ := hq
    dsimp only at hc hv
    exact ⟨b.id, by rw [hv, ← hc]⟩

theorem vals_same {m : HM (Option (Buf UInt8))} {out : List UInt8} (y : Yields m out) : Vals (sameSize w h m) ⟨w, h, out⟩ :=
  vals_gives (gives_sameSize y)

theorem vals_new {m : HM (Option (Buf UInt8) × Option (Nat × Nat))} {ow oh : Nat} {out : List UInt8} (y : YieldsDims m ow oh out)
    (h1 : ow < 2147483648) (h2 : oh < 2147483648) {w h : Int} : Vals (newSize w h m) ⟨ow, oh, out⟩ := by
  intro hp hf
  unfold newSize
  refine HOk.bind ((Track.start hp).yieldsDims hf y) ?_
  rintro r h' ⟨k, rfl, -⟩
  exact HOk.pure ⟨k, by rw [i32OfU32_eq h1, i32OfU32_eq h2]⟩

theorem vals_trims {m : HM OpResult} {l r t b : Nat} (y : TrimsTo m w 4 d l r t b) :
    Vals m ⟨r - l, b - t, crop w 4 d l t (r - l) (b - t)⟩ := by
  intro hp hf
  obtain ⟨⟨x, v1, v2⟩, h1, e, e1, e2, hq⟩ := y hp
  refine ⟨_, h1, e, ?_⟩
  dsimp only at e1 e2 hq
  cases x with
  | none => exact absurd hq (not_oom hf)
  | some b => exact ⟨b.id, by rw [e1, e2, ← hq.2]⟩

/-- The pattern `tmp = f(…); …; r = g(tmp); free(tmp)`. -/
theorem backToRGBA_eq (P : Plat) (w h : Int) (m : HM (Option (Buf UInt8))) :
    backToRGBA P w h m = callThenFree m fun e => fcv_single_to_multichannel P (u32OfInt w) (u32OfInt h) (some e) := by
  unfold backToRGBA callThenFree
  congr 1
  funext r
  cases r <;> rfl

theorem morphOp_eq {f : List UInt8 → Int → HM (Option (Buf UInt8))} {w h : Int} (hp : op.has_param = true) {n : Nat} (hn : n ≤ 2147483647)
    (ha : op.param = .fin n) : morphOp P w h op d f = backToRGBA P w h
      (callThenFree (fcv_rgba_to_grayscale P (u32OfInt w) (u32OfInt h) (some d)) fun g => f g n) := by
  unfold morphOp callThenFree
  rw [if_pos hp, ha]
  have e : toI32 (.fin (n : ℚ)) = .ok (n : Int) := by
    have := toI32_int (x := n) (by unfold IsI32; omega)
    exact_mod_cast this
  congr 2
  funext r
  cases r with
  | none => rfl
  | some b =>
    dsimp only
    congr 1
    funext gray
    exact use_ok e

theorem yields_call {α : Type} {f : HM (Option (Buf α))} {g : List α → HM (Option (Buf UInt8))} {e : List α} {out : List UInt8}
    (hf : ∀ hp, Returns f hp fun c => c = e.map some) (hg : Yields (g e) out) : Yields (callThenFree f g) out :=
  fun hp => callThenFree_returns hp (hf hp) hg

theorem gray_img (p : Picture P w h d) : Img P w h 1 (gray (w * h) d) := by
  have := p.img.size
  rw [p.img.len] at this
  exact ⟨p.img.w_pos, p.img.h_pos, p.img.w_u32, p.img.h_u32, by simp [gray], by simp only [gray, mkPx_length]; omega⟩

theorem yields_back (p : Picture P w h d) {m : HM (Option (Buf UInt8))} {e : List UInt8} (he : e.length = w * h) (y : Yields m e) :
    Yields (backToRGBA P w h m) (grayRGBA (w * h) fun k => px1 1 e k 0) := by
  rw [backToRGBA_eq, p.uw, p.uh]
  have hs := p.img.size
  rw [p.img.len] at hs
  exact yields_call y (single_to_multichannel_correct ⟨p.img.w_pos, p.img.h_pos, p.img.w_u32, p.img.h_u32, by omega, by omega⟩ hs)

theorem vals_morph (p : Picture P w h d) (hs : w * h < 268435456) {f : List UInt8 → Int → HM (Option (Buf UInt8))} {n : Nat}
    (hn : n ≤ 32767) (hp : op.has_param = true) (ha : op.param = .fin n) {S : (Nat → Nat → Prop) → Nat → Nat → Prop}
    (y : MorphOK P w h n (gray (w * h) d) → Yields (f (gray (w * h) d) n) (binImg w h (S (White w h (gray (w * h) d))))) :
    ∃ o, Morphed S ⟨w, h, d⟩ o ∧ Vals (sameSize w h (morphOp P w h op d f)) o := by
  refine ⟨_, rfl, ?_⟩
  rw [morphOp_eq hp (by omega) ha, p.uw, p.uh]
  have g := gray_img p
  have wh1 : w ≤ w * h := Nat.le_mul_of_pos_right _ p.img.h_pos
  have wh2 : h ≤ w * h := Nat.le_mul_of_pos_left _ p.img.w_pos
  have hg := g.size
  have hl : (gray (w * h) d).length = w * h := by simp [gray]
  refine vals_same (yields_back p ?_ (yields_call (rgba_to_grayscale_correct p.img)
    (y ⟨g.w_pos, g.h_pos, hl, by omega, by omega, hn, by omega, by omega⟩)))
  unfold binImg
  simp [mkImg_length]

/-! ### Drawing on a copy -/

theorem byteCount_ok (p : Picture P w h d) (hs : w * h < 268435456) : byteCount P w h = .ok d.length := by
  unfold byteCount
  have e : (w : Int) * h = ((w * h : Nat) : Int) := by push_cast; rfl
  rw [e, i32_ok (by unfold IsI32; omega), ok_bind]
  have e2 : ((w * h : Nat) : Int) * 4 = ((w * h * 4 : Nat) : Int) := by push_cast; rfl
  rw [e2, i32_ok (by unfold IsI32; omega), ok_bind, sizeOfInt_nat (by omega), p.img.len]
  rfl

theorem vals_shape (p : Picture P w h d) (hs : w * h < 268435456) (h1 : op.has_string_param = true) (h2 : op.has_param = true)
    (h3 : op.has_param2 = true) (h4 : op.has_param3 = true)
    {draw : Option (List Char) → Dbl → Dbl → Dbl → List UInt8 → CM (List UInt8)} {out : List UInt8}
    (e : draw (strtok ' ' op.param_str).head? op.param op.param2 op.param3 d = .ok out) :
    Vals (shapeOnCopy P w h op d draw) ⟨w, h, out⟩ := by
  intro hp hf
  unfold shapeOnCopy
  rw [if_pos ⟨h1, h2, h3, h4⟩]
  refine HOk.bind (strdup_ok _ (Track.start hp) hf) ?_
  intro c h1 t1
  rw [use_ok (byteCount_ok p hs)]
  unfold drawOnCopy
  rw [hm_assoc]
  refine HOk.bind (t1.yields hf (copyOf_yields rfl)) ?_
  rintro r h2 ⟨k, rfl, t2⟩
  dsimp only
  rw [hm_assoc]
  refine HOk.bind (t2.use (v := out) (by simp) ?_) ?_
  · rw [asInput_map_some, ok_bind]
    exact e
  · rintro _ _ ⟨rfl, rfl⟩
    rw [hm_pure_bind]
    refine HOk.bind (t2.free (Y := [k]) (List.Perm.swap ..)) ?_
    intro _ h3 _
    exact HOk.pure ⟨k, rfl⟩

/-! ### Texts -/

theorem digit_word {c : Char} {v : Nat} (h : Digit c v) : blank c = false := by
  have : c ∈ lowerDigits ++ upperDigits := by
    rcases h with h | h
    · exact List.mem_append_left _ (List.mem_of_getElem? h)
    · exact List.mem_append_right _ (List.mem_of_getElem? h)
  have key : ∀ c ∈ lowerDigits ++ upperDigits, blank c = false := by decide
  exact key c this

theorem colour_word {s : List Char} {r g b : UInt8} (h : Colour s r g b) : Word s ∧ s.length ≤ 7 := by
  have key : ∀ {t : List Char}, Spells t r g b → (∀ c ∈ t, blank c = false) ∧ t.length = 6 := by
    rintro t ⟨c0, c1, c2, c3, c4, c5, rfl, h0, h1, h2, h3, h4, h5⟩
    refine ⟨?_, rfl⟩
    intro c hc
    simp only [List.mem_cons, List.not_mem_nil, or_false] at hc
    rcases hc with rfl | rfl | rfl | rfl | rfl | rfl
    · exact digit_word h0
    · exact digit_word h1
    · exact digit_word h2
    · exact digit_word h3
    · exact digit_word h4
    · exact digit_word h5
  rcases h with h | ⟨t, rfl, h⟩
  · obtain ⟨h1, h2⟩ := key h
    exact ⟨⟨by rintro rfl; simp at h2, h1⟩, by omega⟩
  · obtain ⟨h1, h2⟩ := key h
    refine ⟨⟨by simp, ?_⟩, by simp [h2]⟩
    intro c hc
    rcases List.mem_cons.1 hc with rfl | hc
    · decide
    · exact h1 c hc

theorem colour_parse {s : List Char} {r g b : UInt8} (h : Colour s r g b) : fcv_parse_hex_color s = (r, g, b) := by
  rcases h with h | ⟨t, rfl, h⟩
  · exact (parse_hex_color_valid h).1
  · exact (parse_hex_color_valid h).2

theorem strtok_head {c : Char} {a b : List Char} (h1 : a ≠ []) (h2 : c ∉ a) : (strtok c (a ++ c :: b)).head? = some a := by
  have key : ∀ (a cur : List Char), c ∉ a → cur.reverse ++ a ≠ [] →
      strtokFrom c cur (a ++ c :: b) = (cur.reverse ++ a) :: strtokFrom c [] b := by
    intro a
    induction a with
    | nil =>
      intro cur _ hne
      have : cur ≠ [] := by rintro rfl; simp at hne
      rw [List.nil_append]
      conv_lhs => unfold strtokFrom
      rw [if_pos rfl, if_neg this]
      simp
    | cons x t ih =>
      intro cur hx _
      rw [List.cons_append]
      conv_lhs => unfold strtokFrom
      rw [if_neg (fun e => hx (by simp [e])), ih _ (fun hm => hx (List.mem_cons_of_mem _ hm)) (by simp)]
      simp
  unfold strtok
  rw [key a [] h2 (by simpa using h1)]
  simp

/-- The colour is what is left of the stored text. -/
theorem stored_colour {s f : List Char} (hs : Word s) (hl : s.length ≤ 7) :
    (strtok ' ' ((((s ++ ' ' :: f).take 127)).take 63)).head? = some s := by
  have : ((s ++ ' ' :: f).take 127).take 63 = s ++ ' ' :: f.take (62 - s.length) := by
    rw [List.take_take, List.take_append]
    rw [List.take_of_length_le (by omega)]
    congr 1
    rw [show min 63 127 - s.length = (62 - s.length) + 1 by omega, List.take_succ_cons]
  rw [this]
  exact strtok_head hs.1 hs.space

theorem marker_word {m : List Char × List Char} (h : Word m.1 ∧ 'x' ∉ m.1 ∧ Word m.2) : Word (markerText m) := by
  refine ⟨by unfold markerText; simp, ?_⟩
  intro c hc
  rcases List.mem_append.1 hc with hc | hc
  · exact h.1.2 c hc
  · rcases List.mem_cons.1 hc with rfl | hc
    · decide
    · exact h.2.2.2 c hc

theorem strtok_words {ws : List (List Char)} (h : ∀ x ∈ ws, Word x) (hne : ws ≠ []) : strtok ' ' ([' '].intercalate ws) = ws := by
  rw [strtok_eq, List.splitOn_intercalate ' ' (fun l hl => (h l hl).space) hne, List.filter_eq_self]
  intro x hx
  simpa using (h x hx).1

theorem count_words {ws : List (List Char)} (h : ∀ x ∈ ws, Word x) (hne : ws ≠ []) : ([' '].intercalate ws).count ' ' + 1 = ws.length := by
  induction ws with
  | nil => exact absurd rfl hne
  | cons x t ih =>
    have hx : x.count ' ' = 0 := List.count_eq_zero.2 (h x (by simp)).space
    cases t with
    | nil => simp [List.intercalate, hx]
    | cons y t =>
      have := ih (fun z hz => h z (List.mem_cons_of_mem _ hz)) (by simp)
      rw [List.intercalate_cons_cons, List.count_append, List.count_append, hx]
      simp only [List.count_cons_self, List.count_nil, List.length_cons] at this ⊢
      omega

theorem strip_words {ws : List (List Char)} (h : ∀ x ∈ ws, Word x) (hne : ws ≠ []) :
    strip ([' '].intercalate ws) = [' '].intercalate ws ∧ [' '].intercalate ws ≠ [] := by
  have key : ∀ ws : List (List Char), (∀ x ∈ ws, Word x) → ws ≠ [] → ∃ a b, Word a ∧ Word b ∧ ([' '].intercalate ws = a ∨ ∃ m, [' '].intercalate ws = a ++ m ++ b) := by
    intro ws
    induction ws with
    | nil => exact fun _ h => absurd rfl h
    | cons x t ih =>
      intro hw _
      cases t with
      | nil => exact ⟨x, x, hw x (by simp), hw x (by simp), Or.inl (by simp [List.intercalate])⟩
      | cons y t =>
        obtain ⟨a, b, ha, hb, e⟩ := ih (fun z hz => hw z (List.mem_cons_of_mem _ hz)) (by simp)
        rw [List.intercalate_cons_cons]
        rcases e with e | ⟨m, e⟩
        · exact ⟨x, a, hw x (by simp), ha, Or.inr ⟨[' '], by rw [e]⟩⟩
        · exact ⟨x, b, hw x (by simp), hb, Or.inr ⟨[' '] ++ a ++ m, by rw [e]; simp⟩⟩
  obtain ⟨a, b, ha, hb, e | ⟨m, e⟩⟩ := key ws h hne
  · rw [e]
    exact ⟨ha.strip, ha.1⟩
  · rw [e]
    exact ⟨strip_between ha hb, by have := ha.1; simp [this]⟩

/-! ### watershed -/

theorem readMarkers_ok {ts : List (List Char × List Char)} (hw : ∀ m ∈ ts, Word m.1 ∧ 'x' ∉ m.1 ∧ Word m.2) :
    ∀ (done : List (Dbl × Dbl)) (rest : Cells (Dbl × Dbl)), rest.length = ts.length →
      readMarkers L (done.length + ts.length) (ts.map markerText) done.length (done.map some ++ rest) =
        .ok (done.length + ts.length, (done ++ ts.map fun m => (L.atof m.1, L.atof m.2)).map some) := by
  induction ts with
  | nil =>
    intro done rest hr
    have : rest = [] := List.length_eq_zero_iff.1 hr
    subst this
    simp [readMarkers]
    rfl
  | cons m ts ih =>
    intro done rest hr
    obtain ⟨w1, w2, w3⟩ := hw m (by simp)
    rw [List.map_cons]
    unfold readMarkers
    rw [if_pos (by simp), show markerText m = m.1 ++ 'x' :: m.2 from rfl, cutAt_of _ w2]
    dsimp only
    rw [trim_eq, trim_eq, w1.strip, w3.strip, wr_ok (by simp [hr])]
    rw [ok_bind]
    have e : (done.map some ++ rest).set done.length (some (L.atof m.1, L.atof m.2)) =
        (done ++ [(L.atof m.1, L.atof m.2)]).map some ++ rest.tail := by
      cases rest with
      | nil => simp at hr
      | cons x rest => simp
    rw [e]
    have := ih (fun m hm => hw m (List.mem_cons_of_mem _ hm)) (done ++ [(L.atof m.1, L.atof m.2)]) rest.tail (by simp [hr])
    rw [List.length_append, List.length_singleton] at this
    rw [List.length_cons, show done.length + (ts.length + 1) = done.length + 1 + ts.length by omega, this]
    simp

theorem vals_watershed (p : Picture P w h d) (hs : w * h < 268435456) {ts : List (List Char × List Char)} (hne : ts ≠ [])
    (hw : ∀ m ∈ ts, Word m.1 ∧ 'x' ∉ m.1 ∧ Word m.2) (hl : ts.length < 4294967296)
    (hm : MarkersInside w h (ts.map fun m => (L.atof m.1, L.atof m.2))) (h1 : op.has_string_param = true)
    (h2 : op.param_str = [' '].intercalate (ts.map markerText)) :
    ∃ o, Segmented (ts.map fun m => (L.atof m.1, L.atof m.2)) ⟨w, h, d⟩ o ∧ Vals (sameSize w h (watershedOp P L w h op d)) o := by
  have hsz := p.img.size
  rw [p.img.len] at hsz
  have hmod := P.mod_ge
  have h12 : w * h * 12 ≤ P.szMax := by
    unfold Plat.szMax
    omega
  obtain ⟨A, y, r1, r2, r3⟩ := watershed_correct (P := P) false (gray_img p) hm
    (by rw [List.length_map]; exact List.length_pos_of_ne_nil hne) (by rw [List.length_map]; omega) (by omega) h12
  refine ⟨_, ⟨A, r1, r2 rfl, r3, rfl⟩, ?_⟩
  have words : ∀ x ∈ ts.map markerText, Word x := by
    intro x hx
    obtain ⟨m, hm, rfl⟩ := List.mem_map.1 hx
    exact marker_word (hw m hm)
  have hne' : ts.map markerText ≠ [] := by simpa using hne
  have hcount : 1 + op.param_str.count ' ' = ts.length := by
    have := count_words words hne'
    rw [List.length_map] at this
    rw [h2]
    omega
  intro hp hf
  unfold sameSize watershedOp
  rw [if_pos h1, hcount, h2, strtok_words words hne', p.uw, p.uh, hm_assoc]
  refine HOk.bind (strdup_ok _ (Track.start hp) hf) ?_
  intro c h1 t1
  rw [hm_assoc]
  refine HOk.bind (t1.malloc hf) ?_
  rintro _ h2 ⟨k, rfl, t2⟩
  dsimp only
  rw [hm_assoc]
  refine HOk.bind (t2.use (v := (ts.length, (ts.map fun m => (L.atof m.1, L.atof m.2)).map some)) (by simp) ?_) ?_
  · have := readMarkers_ok (L := L) hw [] (List.replicate ts.length none) (by simp)
    simpa using this
  rintro _ _ ⟨rfl, rfl⟩
  dsimp only
  rw [if_neg (by simpa using hne), hm_assoc]
  refine HOk.bind (t2.yields hf (rgba_to_grayscale_correct p.img)) ?_
  rintro _ h3 ⟨g, rfl, t3⟩
  dsimp only
  rw [hm_assoc]
  refine HOk.bind (t3.use (v := gray (w * h) d) (by simp) (asInput_map_some _)) ?_
  rintro _ _ ⟨rfl, rfl⟩
  rw [hm_assoc]
  refine HOk.bind (t3.use (v := ts.map fun m => (L.atof m.1, L.atof m.2)) (by simp) ?_) ?_
  · rw [List.take_of_length_le (by simp)]
    exact asInput_map_some _
  rintro _ _ ⟨rfl, rfl⟩
  rw [hm_assoc]
  rw [List.length_map] at y
  refine HOk.bind (t3.yields hf y) ?_
  rintro _ h4 ⟨r, rfl, t4⟩
  rw [hm_assoc]
  refine HOk.bind (t4.free (i := g) (Y := [r, k, c]) (List.Perm.swap ..)) ?_
  intro _ h5 t5
  rw [hm_assoc]
  refine HOk.bind (t5.free (i := k) (Y := [r, c]) (List.Perm.swap ..)) ?_
  intro _ h6 t6
  rw [hm_assoc]
  refine HOk.bind (t6.free (i := c) (Y := [r]) (List.Perm.swap ..)) ?_
  intro _ h7 t7
  rw [hm_pure_bind]
  exact HOk.pure ⟨r, rfl⟩

/-! ### resize -/

theorem vals_scaled (p : Picture P w h d) (hs : w * h < 268435456) {rx ry : ℚ} (F : Factors ⟨w, h, d⟩ rx ry) {w' h' : Int} :
    ∃ o, Rescaled ⟨w, h, d⟩ rx ry o ∧ o.d.length = o.w * o.h * 4 ∧ Vals (newSize w' h' (fcv_resize P w h (.fin rx) (.fin ry) (some d))) o := by
  have hw := F.width
  have hh := F.height
  have hsz := F.size
  dsimp only at hw hh hsz
  have b1 : outDim w rx < 1073741824 := lt_of_le_of_lt (Nat.le_mul_of_pos_right _ hh) hsz
  have b2 : outDim h ry < 1073741824 := lt_of_le_of_lt (Nat.le_mul_of_pos_left _ hw) hsz
  have us : ∀ {n : Nat} {r : ℚ}, 0 < r → outDim n r < 1073741824 → FlatCV.Usable n r := by
    intro n r hr hb
    refine ⟨hr, ?_⟩
    unfold outDim at hb
    have h1 : ⌊Fmt.b64.rnd (n * r)⌋ < 1073741824 := by omega
    have := Int.floor_lt.1 h1
    push_cast at this
    linarith
  have hmod := P.mod_ge
  have fits : outDim w rx * outDim h ry * 4 ≤ P.szMax := by
    unfold Plat.szMax
    omega
  have fit : Fit P w h d rx ry := ⟨⟨p.img, F.rep_x, F.rep_y, us F.pos_x b1, us F.pos_y b2, hw, hh, fits⟩, by omega, by omega⟩
  by_cases hk : 1 ≤ rx ∧ 1 ≤ ry
  · obtain ⟨out, y, a⟩ := resize_enlarge fit hk.1 hk.2
    exact ⟨⟨_, _, out⟩, ⟨rfl, rfl, fun _ _ => a, fun hc => by rcases hc with hc | hc <;> [exact absurd hk.1 (not_le.2 hc); exact absurd hk.2 (not_le.2 hc)]⟩,
      a.1, vals_new y (by omega) (by omega)⟩
  · have hk2 : rx < 2 ∧ ry < 2 := F.kind.resolve_left hk
    have hk1 : rx < 1 ∨ ry < 1 := by
      by_contra hc
      push Not at hc
      exact hk hc
    obtain ⟨out, y, a⟩ := resize_shrink_partial fit hk1 hk2.1 hk2.2
    exact ⟨⟨_, _, out⟩, ⟨rfl, rfl, fun h1 h2 => absurd ⟨h1, h2⟩ hk, fun _ => a⟩, a.1, vals_new y (by omega) (by omega)⟩

theorem div_fin {p q : ℚ} (hq : q ≠ 0) (hr : Fmt.b64.Rep (Fmt.b64.rnd (p / q))) :
    Dbl.div Fmt.b64 (.fin p) (.fin q) = .ok (.fin (Fmt.b64.rnd (p / q))) := by
  show (if q = 0 then _ else _) = _
  rw [if_neg hq]
  unfold Fmt.lift
  rw [if_pos hr.2]

theorem vals_resize (p : Picture P w h d) (hs : w * h < 268435456) {rx ry : ℚ} (F : Factors ⟨w, h, d⟩ rx ry)
    (hv : ∀ hp : Heap, (∀ k, hp.fails k = false) → HOk (resizeFactors L w h op) hp fun r h' => r = some (.fin rx, .fin ry) ∧ h'.fails = hp.fails) :
    ∃ o, Rescaled ⟨w, h, d⟩ rx ry o ∧ o.d.length = o.w * o.h * 4 ∧ Vals (resizeOp P L w h op d) o := by
  obtain ⟨o, a, b, v⟩ := vals_scaled p hs F (w' := w) (h' := h)
  refine ⟨o, a, b, ?_⟩
  intro hp hf
  unfold resizeOp
  refine HOk.bind (hv hp hf) ?_
  rintro _ h1 ⟨rfl, e⟩
  dsimp only
  rw [p.uw, p.uh]
  exact v h1 (by rw [e]; exact hf)

theorem factors_text {rx ry : ℚ} (hst : op.has_string_param = true)
    (e : textFactors L w h op.param_str = .ok (some (.fin rx, .fin ry))) (hp : Heap) (hf : ∀ k, hp.fails k = false) :
    HOk (resizeFactors L w h op) hp fun r h' => r = some (.fin rx, .fin ry) ∧ h'.fails = hp.fails := by
  unfold resizeFactors
  rw [if_pos hst]
  refine HOk.bind (strdup_ok _ (Track.start hp) hf) ?_
  intro c h1 t1
  refine HOk.bind (t1.use (by simp) e) ?_
  rintro _ _ ⟨rfl, rfl⟩
  refine HOk.bind (t1.free (i := c) (Y := []) (List.Perm.refl _)) ?_
  intro _ h2 t2
  exact HOk.pure ⟨rfl, t2.fails⟩

end FlatCV.Props
