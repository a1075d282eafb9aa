/-
Spec: what the program as a whole is asked for.
-/
import Verif.Spec.CliMeaning
import Verif.Spec.Exif
import Verif.Spec.Orient
import Verif.Model.Cli

namespace FlatCV.Spec
open Model

/-- The EXIF orientation that a file (`none` if it cannot be opened) shows: the number stored in it, or 1 if there is none. -/
inductive ShowsOrientation : Option (List UInt8) → Int → Prop
  /-- The file cannot be opened. -/
  | unreadable : ShowsOrientation none 1
  /-- The file is not a JPEG file. -/
  | notJpeg {f} : ¬ [0xFF, 0xD8] <+: f → ShowsOrientation (some f) 1
  /-- The headers end without EXIF data. -/
  | absent {segs m rest} : (∀ s ∈ segs, s.Plain) → m = 0xD9 ∨ m = 0xDA →
      ShowsOrientation (some (jpegHead segs ++ ([0xFF, m] ++ rest))) 1
  /-- The headers store an orientation. -/
  | stored {segs l0 l1 le t} {v : Nat} : (∀ s ∈ segs, s.Plain) → TiffWithOrientation le t v →
      ShowsOrientation (some (jpegWithExif segs l0 l1 t)) v

/-- The name of a file has the extension of a JPEG file, as the program recognises it when reading. -/
def JpegName (path : List Char) : Prop := ∃ e ∈ [".jpg", ".jpeg", ".JPG", ".JPEG"], e.toList <:+ path

/-- The names under which JPEG files are written. -/
def JpegOut (path : List Char) : Prop := ".jpg".toList <:+ path ∨ ".jpeg".toList <:+ path

instance (path : List Char) : Decidable (JpegOut path) := inferInstanceAs (Decidable (_ ∨ _))

/-- The program sees the image `i` in the file: what the decoder makes of it, put upright if it is a JPEG file.  It has fewer than
`2^28` pixels. -/
def Opens (W : World) (path : List Char) (i : Sized) : Prop :=
  ∃ w h d, W.load path = some (w, h, d) ∧ 0 < w ∧ 0 < h ∧ d.length = w * h * 4 ∧ w * h < 268435456 ∧
    (¬ JpegName path ∧ i = ⟨w, h, d⟩ ∨
      JpegName path ∧ ∃ o, ShowsOrientation (W.file path) o ∧ (i.w, i.h) = uprightSize o w h ∧ Upright o w h d i.d)

end FlatCV.Spec
