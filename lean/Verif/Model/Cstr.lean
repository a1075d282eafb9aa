/-
The C library string functions used by `src/cli.c`, and the command line's number parsing.
C strings are lists of non-NUL characters; in a block they are followed by a NUL.
-/
import Verif.Core.Mem

namespace FlatCV.Model

/-- The terminator of a C string. -/
def nul : Char := Char.ofNat 0

/-- `isspace` in the C locale. -/
def isspace (c : Char) : Bool := c.toNat == 32 || (9 ≤ c.toNat && c.toNat ≤ 13)

/-- `isdigit`. -/
def isdigit (c : Char) : Bool := 48 ≤ c.toNat && c.toNat ≤ 57

/-- The string stored at the start of a block. -/
def cstr : Cells Char → CM (List Char)
  | [] => .error .oobRead
  | none :: _ => .error .uninitRead
  | some c :: t => if c = nul then .ok [] else (cstr t).map (c :: ·)

/-- `strcat(dst, src)`: find the end of `dst`, copy `src` and its terminator there. -/
def strcat (dst : Cells Char) (src : List Char) : CM (Cells Char) := do
  let s ← cstr dst
  memcpyIn dst s.length (src ++ [nul]) 0 (src.length + 1)

/-- cli.c:227-240 `trim_whitespace`.  The C function cuts the string in place; here the remaining string is returned.
The first character left is no blank, so the bound `end > s` (236) never stops the second loop. -/
def trim_whitespace (s : List Char) : List Char :=
  ((s.dropWhile isspace).reverse.dropWhile isspace).reverse

/-- `strchr(s, c)`, giving the text before and after the first `c`. -/
def cutAt (c : Char) : List Char → Option (List Char × List Char)
  | [] => none
  | x :: t => if x = c then some ([], t) else (cutAt c t).map fun r => (x :: r.1, r.2)

/-- The successive results of `strtok_r(s, sep, …)` for a single separator: leading separators are skipped, a token ends at the
next separator or at the end.  `cur` is the token being read, reversed. -/
def strtokFrom (sep : Char) (cur : List Char) : List Char → List (List Char)
  | [] => if cur = [] then [] else [cur.reverse]
  | x :: t =>
    if x = sep then (if cur = [] then strtokFrom sep [] t else cur.reverse :: strtokFrom sep [] t)
    else strtokFrom sep (x :: cur) t

/-- All tokens. -/
def strtok (sep : Char) (s : List Char) : List (List Char) := strtokFrom sep [] s

/-- The value of a string of digits. -/
def digitsVal (ds : List Char) : Nat := ds.foldl (fun v c => v * 10 + (c.toNat - 48)) 0

/-- The subject sequence of `strtol`/`strtoul` in base 10: blanks, an optional sign and digits; `none` if there is no digit. -/
def scanInt (s : List Char) : Option (Bool × Nat × List Char) :=
  let s1 := s.dropWhile isspace
  let ns := match s1 with
    | [] => (false, [])
    | c :: t => if c = '-' then (true, t) else if c = '+' then (false, t) else (false, c :: t)
  let ds := ns.2.takeWhile isdigit
  if ds = [] then none else some (ns.1, digitsVal ds, ns.2.dropWhile isdigit)

/-- `strtoul(s, &end, 10)` with `ULONG_MAX = 2*lmax+1`: the value and the text at `end`.  Too large values give `ULONG_MAX`,
a minus sign negates modulo `ULONG_MAX + 1`. -/
def strtoul (lmax : Nat) (s : List Char) : Nat × List Char :=
  match scanInt s with
  | none => (0, s)
  | some (neg, n, rest) =>
    if 2 * lmax + 1 < n then (2 * lmax + 1, rest)
    else if neg then ((2 * lmax + 2 - n) % (2 * lmax + 2), rest) else (n, rest)

/-- `strtol(s, &end, 10)` with `LONG_MAX = lmax` and `LONG_MIN = -lmax-1`. -/
def strtol (lmax : Nat) (s : List Char) : Int × List Char :=
  match scanInt s with
  | none => (0, s)
  | some (neg, n, rest) =>
    if neg then (if lmax + 1 < n then (-(lmax + 1 : Nat) : Int) else -(n : Int), rest)
    else (if lmax < n then (lmax : Int) else (n : Int), rest)

/-- `atoi`; undefined when the value is no `int`. -/
def atoi (lmax : Nat) (s : List Char) : CM Int := i32 (strtol lmax s).1

/-- cli.c:253-309 `parse_geometry`.  The result holds the four values stored through the pointers; the only caller passes
valid pointers, so the checks at 260 concern `geometry` alone. -/
def parse_geometry (lmax : Nat) (geometry : Option (List Char)) : Option (Nat × Nat × Int × Int) :=
  match geometry with
  | none => none
  | some g =>
    let (w, e) := strtoul lmax g
    if e.head? ≠ some 'x' ∨ w = 0 ∨ 4294967295 < w then none
    else
      let (h, e) := strtoul lmax e.tail
      if h = 0 ∨ 4294967295 < h then none
      else if e = [] then some (w, h, 0, 0)
      else
        let (x, e) := strtol lmax e
        if x < -2147483648 ∨ 2147483647 < x then none
        else if e = [] then some (w, h, x, 0)
        else
          let (y, e) := strtol lmax e
          if y < -2147483648 ∨ 2147483647 < y ∨ e ≠ [] then none
          else some (w, h, x, y)

end FlatCV.Model
