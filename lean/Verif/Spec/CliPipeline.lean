/-
What the pieces of a pipeline mean.
-/
import Verif.Spec.Cli
import Verif.Model.CliParse

namespace FlatCV.Spec

open Model

/-- Operations with a syntax of their own. -/
def special : List (List Char) :=
  ["resize".toList, "circle".toList, "disk".toList, "watershed".toList, "crop".toList, "extract_document_to".toList,
   "extract_document".toList, "border".toList, "trim".toList]

/-- A word: not empty, without blanks. -/
def Word (s : List Char) : Prop := s ≠ [] ∧ ∀ c ∈ s, blank c = false

/-- The operation denoted by a piece of the pipeline. -/
inductive Means (atof : List Char → Dbl) (fmt : Dbl → List Char) : List Char → PipelineOp → Prop
  /-- `grayscale` -/
  | bare {name} : Word name → Means atof fmt name { operation := name }
  /-- `blur 5` -/
  | one {name a} : Word name → name ∉ special → Word a →
      Means atof fmt (name ++ ' ' :: a) { operation := name, param := atof a, has_param := true }
  /-- `resize 0.5`, `trim 3` -/
  | oneOf {name a} : name ∈ ["resize".toList, "trim".toList] → Word a → '%' ∉ a → 'x' ∉ a →
      Means atof fmt (name ++ ' ' :: a) { operation := name, param := atof a, has_param := true }
  /-- `resize 0.5 0.25` -/
  | two {name a b} : Word name → (name ∉ special ∨ (name = "resize".toList ∧ '%' ∉ a ++ b ∧ 'x' ∉ a ++ b)) → Word a → Word b →
      Means atof fmt (name ++ ' ' :: (a ++ ' ' :: b))
        { operation := name, param := atof a, has_param := true, param2 := atof b, has_param2 := true }
  /-- `resize 50%x80%`, `trim 2%` -/
  | text {name a} : (name = "resize".toList ∧ ('%' ∈ a ∨ 'x' ∈ a)) ∨ (name = "trim".toList ∧ '%' ∈ a) → Word a →
      Means atof fmt (name ++ ' ' :: a) { operation := name, param_str := a, has_string_param := true }
  /-- `watershed 10x20 30x40` -/
  | watershed {a} : a ≠ [] → strip a = a →
      Means atof fmt ("watershed".toList ++ ' ' :: a)
        { operation := "watershed".toList, param_str := a, has_string_param := true }
  /-- `crop 640x480+10-20` -/
  | crop {w h : Nat} {x y : Int} : 0 < w → w ≤ 4294967295 → 0 < h → h ≤ 4294967295 → IsI32 x → IsI32 y →
      Means atof fmt ("crop".toList ++ ' ' :: (dec w ++ 'x' :: (dec h ++ (signed x ++ signed y))))
        { operation := "crop".toList, param := .fin x, has_param := true, param2 := .fin y, has_param2 := true,
          param3 := .fin w, has_param3 := true, param4 := .fin h, has_param4 := true }
  /-- `extract_document_to 800x600` -/
  | extractTo {w h : Nat} : 0 < w → w ≤ 2147483647 → 0 < h → h ≤ 2147483647 →
      Means atof fmt ("extract_document_to".toList ++ ' ' :: (dec w ++ 'x' :: dec h))
        { operation := "extract_document_to".toList, param := .fin w, has_param := true, param2 := .fin h, has_param2 := true }
  /-- `border FF0000 10` -/
  | border {color a} : Word color → Word a → Dbl.lt (.fin 0) (atof a) = true →
      Means atof fmt ("border".toList ++ ' ' :: (color ++ ' ' :: a))
        { operation := "border".toList, param := atof a, has_param := true, param_str := color, has_string_param := true }
  /-- `disk FF0000 5 20x30` -/
  | shape {name color r x y} : name ∈ ["circle".toList, "disk".toList] → Word color → Word r → Word x → 'x' ∉ x → Word y →
      Means atof fmt (name ++ ' ' :: (color ++ ' ' :: (r ++ ' ' :: (x ++ 'x' :: y))))
        { operation := name, param := atof r, has_param := true, param2 := atof x, has_param2 := true, param3 := atof y,
          has_param3 := true, param_str := (color ++ ' ' :: fmt (atof x) ++ ' ' :: fmt (atof y)).take 127, has_string_param := true }

/-- Operations as stored: names of at most 31, string parameters of at most 63 characters. -/
def stored (o : PipelineOp) : PipelineOp :=
  { o with operation := o.operation.take 31, param_str := if o.has_string_param then o.param_str.take 63 else [] }

end FlatCV.Spec
