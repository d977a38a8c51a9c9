import Verif.Sio.Device
import Verif.Lcio.Params
/-
Text: decimal numbers and tokens.
-/
namespace Util
open Sio Lcio

/-- Decimal digits; the first argument bounds the recursion. -/
def decLoop : Nat → Nat → Str
  | 0, _ => []
  | fuel+1, n => if n < 10 then [UInt8.ofNat (48 + n)] else decLoop fuel (n / 10) ++ [UInt8.ofNat (48 + n % 10)]

/-- `os << n` for an unsigned number (`std::ostream`, default flags). -/
def dec (n : Nat) : Str := decLoop (n + 1) n

/-- `os << n` for a signed number. -/
def decInt (n : Int) : Str := if n < 0 then str "-" ++ dec n.natAbs else dec n.toNat

/-- `isspace` in the "C" locale. -/
def isSpace (c : Byte) : Bool := c == 32 || (9 ≤ c && c ≤ 13)
/-- `isdigit`. -/
def isDigit (c : Byte) : Bool := 48 ≤ c && c ≤ 57

/-- The number given by the digits at the beginning. -/
def digits (acc : Nat) : Str → Nat
  | [] => acc
  | c :: cs => if isDigit c then digits (acc * 10 + (c.toNat - 48)) cs else acc

/-- `atol`, of the C library: white space, an optional sign, digits; the rest is ignored. The behaviour is undefined if the number does not fit. -/
def atol (s : Str) : Except Err Int :=
  let s := s.dropWhile isSpace
  let n : Int := match s with
    | 45 :: cs => -(digits 0 cs)
    | 43 :: cs => digits 0 cs
    | cs => digits 0 cs
  if n < -2 ^ 63 ∨ 2 ^ 63 ≤ n then .error .ub else .ok n

/-- `_tokens.back() += c`; there is always a token when it is called. -/
def appendLast (c : Byte) : List Str → List Str
  | [] => []
  | [t] => [t ++ [c]]
  | t :: ts => t :: appendLast c ts

/-- `LCTokenizer::operator()`, src/cpp/include/UTIL/BitField64.h:39-48: tokens and the last character. -/
def tokStep (del : Byte) (st : List Str × Byte) (c : Byte) : List Str × Byte :=
  if c ≠ del then
    let toks := if st.2 = del then st.1 ++ [[]] else st.1
    (appendLast c toks, c)
  else (st.1, c)

/-- `LCTokenizer` used with `std::for_each`, BitField64.h:21-50. -/
def tokens (del : Byte) (s : Str) : List Str := (s.foldl (tokStep del) ([], del)).1

end Util
