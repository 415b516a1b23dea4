import Verif.Programs.TokenizerTest
import Verif.Strings.Props
import Verif.Combi.Model
import Verif.Real.Ieee

/-!
# The tables of the test program

`strtk_tokenizer_test.cpp` states what the library returns on some hundred texts.  The model returns the same.  This checks the model against the program; it is no
part of the proofs.  Generated by tools/gen_conformance.py.
-/

namespace Strtk.Conformance
open Outcome Strtk.Number Strtk.Split Strtk.Programs.Test

/-- The characters of a text. -/
def chars (s : String) : List Byte := s.toList.map fun c => BitVec.ofNat 8 c.toNat

/-- What the test expects of a real: a fraction in lowest terms, an infinity or `nan`. -/
inductive Expect where
  | num (a : Int) (b : Nat) | inf (neg : Bool) | nan

/-- Does the result of the conversion in exact arithmetic meet the expectation? -/
def meets : Outcome (Option Real.Val) → Expect → Bool
  | ok (some (.num r)), .num a b => decide (r.num = a) && decide (r.den = b)
  | ok (some (.inf s)), .inf t => s == t
  | ok (some .nan), .nan => true
  | _, _ => false

/-- A conversion that was refused. -/
def refused {α : Type} : Outcome (Bool × α) → Bool
  | ok (false, _) => true
  | _ => false

--TABLES--

/-- `multi_predicate` of the test (311-312). -/
def multi (c : Byte) : Bool := charPred (chars "|?-,;_") c

-- the four tables, with split and with the tokenizer (116-378)
example : (table1.all fun e => testTokenizerSplit (· == 124) (chars e.1) (chars e.2) false == ok true && testTokenizerItr (· == 124) (chars e.1) (chars e.2) false == ok true) = true := by decide +kernel
example : (table2.all fun e => testTokenizerSplit multi (chars e.1) (chars e.2) false == ok true && testTokenizerItr multi (chars e.1) (chars e.2) false == ok true) = true := by decide +kernel
example : (table3.all fun e => testTokenizerSplit (· == 124) (chars e.1) (chars e.2) true == ok true && testTokenizerItr (· == 124) (chars e.1) (chars e.2) true == ok true) = true := by decide +kernel
example : (table4.all fun e => testTokenizerSplit multi (chars e.1) (chars e.2) true == ok true && testTokenizerItr multi (chars e.1) (chars e.2) true == ok true) = true := by decide +kernel

-- the options (380-544)
example : (tokenizerTokens { first := true, compress := true } (charPred (chars "abcijkxyz")) (chars "1xyz23ijk456abc") >>= fun r =>
    ok (r.map (textOf (chars "1xyz23ijk456abc")))) = ok [chars "1x", chars "23i", chars "456a", []] := by decide +kernel
example : (tokenizerTokens { all := true } (charPred (chars "abcijkxyz")) (chars "1xyz23ijk456abc") >>= fun r =>
    ok (r.map (textOf (chars "1xyz23ijk456abc")))) = ok [chars "1xyz", chars "23ijk", chars "456abc", []] := by decide +kernel
example : (split { first := true, compress := true } (charPred (chars "abcijkxyz")) (chars "1xyz23ijk456abc") >>= fun r =>
    ok (r.1.map (textOf (chars "1xyz23ijk456abc")))) = ok [chars "1x", chars "23i", chars "456a", []] := by decide +kernel
example : (split { all := true } (charPred (chars "abcijkxyz")) (chars "1xyz23ijk456abc") >>= fun r =>
    ok (r.1.map (textOf (chars "1xyz23ijk456abc")))) = ok [chars "1xyz", chars "23ijk", chars "456abc", []] := by decide +kernel

-- split_n (548-568)
example : testSplitN (chars " ,|" ++ [9] ++ chars "_:!") (chars "1234567890abcdefghijklmnopqrstuvwxyz") = ok true := by decide +kernel

-- fast conversions (689-723)
example : fastTable (fast.map fun e => (chars e.1, e.2)) = ok true := by decide +kernel

-- integers (1440-1640)
example : (ints.all fun e => parseSigned int (chars e.1) 9999999 == ok (true, e.2)) = true := by decide +kernel
example : (badInts.all fun s => refused (parseSigned int (chars s) 0)) = true := by decide +kernel
example : (badInts.all fun s => refused (parseUnsigned uint (chars s) 0)) = true := by decide +kernel
example : (badInts.all fun s => refused (parseSigned short (chars s) 0)) = true := by decide +kernel
example : (badInts.all fun s => refused (parseUnsigned ushort (chars s) 0)) = true := by decide +kernel

-- reals (728-1325), in exact arithmetic
example : (doubles.all fun e => meets (Real.realParse Real.exact Real.doubleMin (chars e.1)) e.2) = true := by decide +kernel
example : (badDoubles.all fun s => decide (Real.realParse Real.exact Real.doubleMin (chars s) = ok none)) = true := by decide +kernel
example : (tens.zipIdx.all fun e => meets (Real.realParse Real.exact Real.doubleMin (chars e.1)) (.num (10 ^ (e.2 + 1)) 1)) = true := by decide +kernel
example : (fracs.all fun e => meets (Real.realParse Real.exact Real.doubleMin (chars e.1)) e.2) = true := by decide +kernel

/-- Does `p` occur in `s`? -/
def occurs (p s : List Byte) : Bool := s.tails.any fun t => p.isPrefixOf t

-- replace_pattern (2472-2532): the pattern does not occur in the result
example : (patterns.all fun e => bases.all fun b =>
    match Strings.replacePattern (chars b) (chars e.1) (chars e.2) [] with
    | ok r => !occurs (chars e.1) r
    | _ => false) = true := by decide +kernel

-- n_choose_k (2534-2604)
example : (chosen.all fun e => decide (Nat.choose e.1 e.2.1 = e.2.2)) = true := by decide +kernel

end Strtk.Conformance
