import Verif.Programs.TokenizerTest
import Verif.Strings.Props
import Verif.Combi.Model
import Verif.Real.Ieee

/-!
# The tables of the test program

`strtk_tokenizer_test.cpp` states what the library returns on some hundred texts.  The model returns the same.  This checks the model against the program; it is no
part of the proofs.  Generated by tools/gen_conformance.py.
-/

namespace Strtk.Conformance
open Outcome Strtk.Number Strtk.Split Strtk.Programs.Test

/-- The characters of a text. -/
def chars (s : String) : List Byte := s.toList.map fun c => BitVec.ofNat 8 c.toNat

/-- What the test expects of a real: a fraction in lowest terms, an infinity or `nan`. -/
inductive Expect where
  | num (a : Int) (b : Nat) | inf (neg : Bool) | nan

/-- Does the result of the conversion in exact arithmetic meet the expectation? -/
def meets : Outcome (Option Real.Val) → Expect → Bool
  | ok (some (.num r)), .num a b => decide (r.num = a) && decide (r.den = b)
  | ok (some (.inf s)), .inf t => s == t
  | ok (some .nan), .nan => true
  | _, _ => false

/-- A conversion that was refused. -/
def refused {α : Type} : Outcome (Bool × α) → Bool
  | ok (false, _) => true
  | _ => false

/-- `test_input_output1`. -/
def table1 : List (String × String) :=
  [("d", "d"), ("d|x", "d,x"), ("d||x", "d,<>,x"), ("|d||x", "<>,d,<>,x"),
   ("d||x|", "d,<>,x,<>"), ("|d||x|", "<>,d,<>,x,<>"), ("||d||x||", "<>,<>,d,<>,x,<>,<>"), ("||", "<>,<>,<>"),
   ("|", "<>,<>"), ("|||", "<>,<>,<>,<>"), ("", ""), ("dxd", "dxd"),
   ("dx|xd", "dx,xd"), ("dxd||xdx", "dxd,<>,xdx"), ("|dx||x", "<>,dx,<>,x"), ("d||xd|", "d,<>,xd,<>"),
   ("|xd||dx|", "<>,xd,<>,dx,<>"), ("||dd||xx||", "<>,<>,dd,<>,xx,<>,<>"), ("abc", "abc"), ("abc|xyz", "abc,xyz"),
   ("abc||xyz", "abc,<>,xyz"), ("|abc||xyz", "<>,abc,<>,xyz"), ("abc||xyz|", "abc,<>,xyz,<>"), ("|abc||xyz|", "<>,abc,<>,xyz,<>"),
   ("||abc||xyz||", "<>,<>,abc,<>,xyz,<>,<>"), ("||", "<>,<>,<>"), ("|", "<>,<>"), ("|||", "<>,<>,<>,<>"),
   ("", ""), ("abcxyzabc", "abcxyzabc"), ("abcxyz|xyzabc", "abcxyz,xyzabc"), ("abcxyzabc||xyzabcxyz", "abcxyzabc,<>,xyzabcxyz"),
   ("|abcxyz||xyz", "<>,abcxyz,<>,xyz"), ("abc||xyzabc|", "abc,<>,xyzabc,<>"), ("|xyzabc||abcxyz|", "<>,xyzabc,<>,abcxyz,<>"), ("||abcabc||xyzxyz||", "<>,<>,abcabc,<>,xyzxyz,<>,<>"),
   ("a|ij|xyz", "a,ij,xyz"), ("a||ij||xyz", "a,<>,ij,<>,xyz"), ("|a||ij|||xyz", "<>,a,<>,ij,<>,<>,xyz"), ("|a||ij|||xyz|", "<>,a,<>,ij,<>,<>,xyz,<>")]

/-- `test_input_output2`. -/
def table2 : List (String × String) :=
  [("d", "d"), ("d|x", "d,x"), ("d?|x", "d,<>,x"), (",d?-x", "<>,d,<>,x"),
   ("d;?x|", "d,<>,x,<>"), ("|d;;x-", "<>,d,<>,x,<>"), ("_|d?|x;-", "<>,<>,d,<>,x,<>,<>"), ("|_", "<>,<>,<>"),
   (";", "<>,<>"), ("?_,", "<>,<>,<>,<>"), ("", ""), ("dxd", "dxd"),
   ("dx,xd", "dx,xd"), ("dxd|,xdx", "dxd,<>,xdx"), (";dx||x", "<>,dx,<>,x"), ("d|;xd?", "d,<>,xd,<>"),
   ("_xd,,dx;", "<>,xd,<>,dx,<>"), ("__dd|_xx,;", "<>,<>,dd,<>,xx,<>,<>"), ("abc", "abc"), ("abc|xyz", "abc,xyz"),
   ("abc?|xyz", "abc,<>,xyz"), (",abc?-xyz", "<>,abc,<>,xyz"), ("abc;?xyz|", "abc,<>,xyz,<>"), ("|abc;;xyz-", "<>,abc,<>,xyz,<>"),
   ("_|abc?|xyz;-", "<>,<>,abc,<>,xyz,<>,<>"), ("|_", "<>,<>,<>"), (";", "<>,<>"), ("?_,", "<>,<>,<>,<>"),
   ("", ""), ("abcxyzabc", "abcxyzabc"), ("abcxyz,xyzabc", "abcxyz,xyzabc"), ("abcxyzabc|,xyzabcxyz", "abcxyzabc,<>,xyzabcxyz"),
   (";abcxyz||xyz", "<>,abcxyz,<>,xyz"), ("abc|;xyzabc?", "abc,<>,xyzabc,<>"), ("_xyzabc,,abcxyz;", "<>,xyzabc,<>,abcxyz,<>"), ("__abcabc|_xyzxyz,;", "<>,<>,abcabc,<>,xyzxyz,<>,<>"),
   ("a|ij?xyz", "a,ij,xyz"), ("a|_ij,;xyz", "a,<>,ij,<>,xyz"), ("_a??ij;,|xyz", "<>,a,<>,ij,<>,<>,xyz"), ("_a||ij,,?xyz_", "<>,a,<>,ij,<>,<>,xyz,<>")]

/-- `test_input_output3`. -/
def table3 : List (String × String) :=
  [("d", "d"), ("d|x", "d,x"), ("d||x", "d,x"), ("|d||x", "<>,d,x"),
   ("d||x|", "d,x,<>"), ("|d||x|", "<>,d,x,<>"), ("||d||x||", "<>,d,x,<>"), ("||", "<>,<>"),
   ("|", "<>,<>"), ("|||", "<>,<>"), ("", ""), ("dxd", "dxd"),
   ("dx|xd", "dx,xd"), ("dxd||xdx", "dxd,xdx"), ("|dx||x", "<>,dx,x"), ("d||xd|", "d,xd,<>"),
   ("|xd||dx|", "<>,xd,dx,<>"), ("||dd||xx||", "<>,dd,xx,<>"), ("abc", "abc"), ("abc|xyz", "abc,xyz"),
   ("abc||xyz", "abc,xyz"), ("|abc||xyz", "<>,abc,xyz"), ("abc||xyz|", "abc,xyz,<>"), ("|abc||xyz|", "<>,abc,xyz,<>"),
   ("||abc||xyz||", "<>,abc,xyz,<>"), ("||", "<>,<>"), ("|", "<>,<>"), ("|||", "<>,<>"),
   ("", ""), ("abcxyzabc", "abcxyzabc"), ("abcxyz|xyzabc", "abcxyz,xyzabc"), ("abcxyzabc||xyzabcxyz", "abcxyzabc,xyzabcxyz"),
   ("|abcxyz||xyz", "<>,abcxyz,xyz"), ("abc||xyzabc|", "abc,xyzabc,<>"), ("|xyzabc||abcxyz|", "<>,xyzabc,abcxyz,<>"), ("||abcabc||xyzxyz||", "<>,abcabc,xyzxyz,<>"),
   ("a|ij|xyz", "a,ij,xyz"), ("a||ij||xyz", "a,ij,xyz"), ("|a||ij|||xyz", "<>,a,ij,xyz"), ("|a||ij|||xyz|", "<>,a,ij,xyz,<>")]

/-- `test_input_output4`. -/
def table4 : List (String × String) :=
  [("d", "d"), ("d;x", "d,x"), ("d|?x", "d,x"), (",d_|x", "<>,d,x"),
   ("d|;x|", "d,x,<>"), (";d||x|", "<>,d,x,<>"), ("|,d?|x;;", "<>,d,x,<>"), ("|?", "<>,<>"),
   ("|", "<>,<>"), ("?,|", "<>,<>"), ("", ""), ("dxd", "dxd"),
   ("dx,xd", "dx,xd"), ("dxd?,xdx", "dxd,xdx"), ("|dx;|x", "<>,dx,x"), ("d|,xd_", "d,xd,<>"),
   (";xd||dx|", "<>,xd,dx,<>"), ("|?dd|,xx?_", "<>,dd,xx,<>"), ("abc", "abc"), ("abc;xyz", "abc,xyz"),
   ("abc,,xyz", "abc,xyz"), ("|abc;|xyz", "<>,abc,xyz"), ("abc?|xyz,", "abc,xyz,<>"), ("|abc||xyz|", "<>,abc,xyz,<>"),
   ("||abc?|xyz_|", "<>,abc,xyz,<>"), ("|,", "<>,<>"), ("|", "<>,<>"), (";,|", "<>,<>"),
   ("", ""), ("abcxyzabc", "abcxyzabc"), ("abcxyz;xyzabc", "abcxyz,xyzabc"), ("abcxyzabc|,xyzabcxyz", "abcxyzabc,xyzabcxyz"),
   ("_abcxyz;?xyz", "<>,abcxyz,xyz"), ("abc,|xyzabc|", "abc,xyzabc,<>"), ("|xyzabc|?abcxyz,", "<>,xyzabc,abcxyz,<>"), ("?|abcabc_|xyzxyz|_", "<>,abcabc,xyzxyz,<>"),
   ("a,ij|xyz", "a,ij,xyz"), ("a?|ij|,xyz", "a,ij,xyz"), ("|a||ij|,?xyz", "<>,a,ij,xyz"), ("?a|,ij|;_xyz|", "<>,a,ij,xyz,<>")]

/-- `test_str` and `test_int` of `test_int_uint_convert`. -/
def ints : List (String × Int) :=
  [("0", 0), ("1", 1), ("12", 12), ("123", 123), ("1234", 1234), ("12345", 12345),
   ("123456", 123456), ("1234567", 1234567), ("12345678", 12345678), ("123456789", 123456789), ("-0", 0), ("-1", -1),
   ("-12", -12), ("-123", -123), ("-1234", -1234), ("-12345", -12345), ("-123456", -123456), ("-1234567", -1234567),
   ("-12345678", -12345678), ("-123456789", -123456789), ("-2147483574", -2147483574)]

/-- `bad_list` of `test_int_uint_convert`. -/
def badInts : List String :=
  ["12345678901", "+12345678901", "123456789012", "+123456789012", "1234567890123",
   "+1234567890123", "12345678901234", "+12345678901234", "123456789012345", "+123456789012345",
   "00000123456789012345", "+00000123456789012345", "12345678901234500000", "+12345678901234500000", "1234A",
   "+1234A", "12A34", "+12A34", "A1234", "+A1234",
   "-12345678901", "012345678901", "-123456789012", "00123456789012", "-1234567890123",
   "0001234567890123", "-12345678901234", "00012345678901234", "-123456789012345", "000123456789012345",
   "-00000123456789012345", "-012345678901", "-12345678901234500000", "-00123456789012", "-1234A",
   "-0001234567890123", "-12A34", "-00012345678901234", "-A1234", "-000123456789012345",
   "+012345678901", "+00123456789012", "+0001234567890123", "+00012345678901234", "+000123456789012345",
   "+", "-", "+-", "-+", ""]

/-- The texts and numbers of `test_fast_convert`. -/
def fast : List (String × Nat) :=
  [("0000000000000000", 0), ("1111111111111111", 1111111111111111), ("2222222222222222", 2222222222222222),
   ("3333333333333333", 3333333333333333), ("4444444444444444", 4444444444444444), ("5555555555555555", 5555555555555555),
   ("6666666666666666", 6666666666666666), ("1234567890123456", 1234567890123456), ("9876543210987654", 9876543210987654),
   ("1919191919191919", 1919191919191919), ("00000000000000000", 0), ("11111111111111111", 11111111111111111),
   ("22222222222222222", 22222222222222222), ("33333333333333333", 33333333333333333), ("44444444444444444", 44444444444444444),
   ("55555555555555555", 55555555555555555), ("66666666666666666", 66666666666666666), ("12345678901234567", 12345678901234567),
   ("98765432109876543", 98765432109876543), ("19191919191919191", 19191919191919191), ("000000000000000000", 0),
   ("111111111111111111", 111111111111111111), ("222222222222222222", 222222222222222222), ("333333333333333333", 333333333333333333),
   ("444444444444444444", 444444444444444444), ("555555555555555555", 555555555555555555), ("666666666666666666", 666666666666666666),
   ("123456789012345677", 123456789012345677), ("987654321098765432", 987654321098765432), ("191919191919191919", 191919191919191919)]

/-- `double_str` and `d` of `test_double_convert`. -/
def doubles : List (String × Expect) :=
  [("7379973.6624700", .num (737997366247) 100000), ("+2187496.9290991", .num (21874969290991) 10000000), ("384281.3720002", .num (1921406860001) 5000000), ("06603499.49182570", .num (66034994918257) 10000000),
   ("-80173.0014819", .num (-801730014819) 10000000), ("+00693.000285", .num (138600057) 200000), ("-0.6366299", .num (-6366299) 10000000), ("+0.2335175000", .num (93407) 400000),
   ("-00.6366299", .num (-6366299) 10000000), ("+00.2335175000", .num (93407) 400000), ("-000.6366299", .num (-6366299) 10000000), ("+000.2335175000", .num (93407) 400000),
   ("123.456e3", .num (123456) 1), ("123.456E3", .num (123456) 1), ("123.456e+3", .num (123456) 1), ("123.456E+3", .num (123456) 1),
   ("123.456e03", .num (123456) 1), ("123.456E03", .num (123456) 1), ("123.456e+03", .num (123456) 1), ("123.456E+03", .num (123456) 1),
   ("123.456e0003", .num (123456) 1), ("123.456E0003", .num (123456) 1), ("123.456e+0003", .num (123456) 1), ("123.456E+0003", .num (123456) 1),
   ("123.4560e3", .num (123456) 1), ("123.45600E3", .num (123456) 1), ("123.456000e+3", .num (123456) 1), ("123.456000E+3", .num (123456) 1),
   ("123.4560000e03", .num (123456) 1), ("123.45600000E03", .num (123456) 1), ("123.456000000e+03", .num (123456) 1), ("123.4560000000E+03", .num (123456) 1),
   ("123.45600000000e0003", .num (123456) 1), ("123.456000000000E0003", .num (123456) 1), ("123.4560000000000e+0003", .num (123456) 1), ("123.45600000000000E+0003", .num (123456) 1),
   ("+0123.456e+003", .num (123456) 1), ("-00123.456E+003", .num (-123456) 1), ("+000123.45600E3", .num (123456) 1), ("-123.456e3", .num (-123456) 1),
   ("+123.456E3", .num (123456) 1), ("-123.456e+3", .num (-123456) 1), ("+123.456E+3", .num (123456) 1), ("-123.456e03", .num (-123456) 1),
   ("+123.456E03", .num (123456) 1), ("-123.456e123", .num (-123456000000000000000000000000000000000000000000000000000000000000000000000000000000000000000000000000000000000000000000000000) 1), ("+123.456E123", .num (123456000000000000000000000000000000000000000000000000000000000000000000000000000000000000000000000000000000000000000000000000) 1), ("-123.456e+123", .num (-123456000000000000000000000000000000000000000000000000000000000000000000000000000000000000000000000000000000000000000000000000) 1),
   ("+123.456E+123", .num (123456000000000000000000000000000000000000000000000000000000000000000000000000000000000000000000000000000000000000000000000000) 1), ("-123.456e0123", .num (-123456000000000000000000000000000000000000000000000000000000000000000000000000000000000000000000000000000000000000000000000000) 1), ("+123.456E0123", .num (123456000000000000000000000000000000000000000000000000000000000000000000000000000000000000000000000000000000000000000000000000) 1), ("-123.456e+03", .num (-123456) 1),
   ("+123.456E+03", .num (123456) 1), ("-123.456e0003", .num (-123456) 1), ("+123.456E0003", .num (123456) 1), ("-123.456e+0003", .num (-123456) 1),
   ("+123.456E+0003", .num (123456) 1), ("-123.4560e3", .num (-123456) 1), ("+123.45600E3", .num (123456) 1), ("-123.456000e+3", .num (-123456) 1),
   ("+123.456000E+3", .num (123456) 1), ("-123.4560000e03", .num (-123456) 1), ("+123.45600000E03", .num (123456) 1), ("-123.456000000e+03", .num (-123456) 1),
   ("+123.4560000000E+03", .num (123456) 1), ("-123.45600000000e0003", .num (-123456) 1), ("+123.456000000000E0003", .num (123456) 1), ("-123.4560000000000e+0003", .num (-123456) 1),
   ("+123.45600000000000E+0003", .num (123456) 1), ("-0123.456e+003", .num (-123456) 1), ("+00123.456E+003", .num (123456) 1), ("-000123.45600E3", .num (-123456) 1),
   ("000000123.456e+0003", .num (123456) 1), ("0.0", .num (0) 1), ("00.00", .num (0) 1), ("0.0e10", .num (0) 1),
   ("0e+10", .num (0) 1), ("0e-10", .num (0) 1), ("-0.0e10", .num (0) 1), ("+0e10", .num (0) 1),
   ("00e010", .num (0) 1), ("000.000", .num (0) 1), ("0000.0000", .num (0) 1), ("1234.", .num (1234) 1),
   ("01.2", .num (6) 5), ("0012.340", .num (617) 50), ("00012.34500", .num (2469) 200), ("0", .num (0) 1),
   ("123", .num (123) 1), ("0123", .num (123) 1), ("00123", .num (123) 1), ("-123", .num (-123) 1),
   ("+123", .num (123) 1), ("0", .num (0) 1), ("1", .num (1) 1), ("2", .num (2) 1),
   ("3", .num (3) 1), ("4", .num (4) 1), ("5", .num (5) 1), ("6", .num (6) 1),
   ("7", .num (7) 1), ("8", .num (8) 1), ("9", .num (9) 1), ("+0", .num (0) 1),
   ("+1", .num (1) 1), ("+2", .num (2) 1), ("+3", .num (3) 1), ("+4", .num (4) 1),
   ("+5", .num (5) 1), ("+6", .num (6) 1), ("+7", .num (7) 1), ("+8", .num (8) 1),
   ("+9", .num (9) 1), ("-0", .num (0) 1), ("-1", .num (-1) 1), ("-2", .num (-2) 1),
   ("-3", .num (-3) 1), ("-4", .num (-4) 1), ("-5", .num (-5) 1), ("-6", .num (-6) 1),
   ("-7", .num (-7) 1), ("-8", .num (-8) 1), ("-9", .num (-9) 1), ("0.0", .num (0) 1),
   ("1.0", .num (1) 1), ("2.0", .num (2) 1), ("3.0", .num (3) 1), ("4.0", .num (4) 1),
   ("5.0", .num (5) 1), ("6.0", .num (6) 1), ("7.0", .num (7) 1), ("8.0", .num (8) 1),
   ("9.0", .num (9) 1), ("+0.0", .num (0) 1), ("+1.0", .num (1) 1), ("+2.0", .num (2) 1),
   ("+3.0", .num (3) 1), ("+4.0", .num (4) 1), ("+5.0", .num (5) 1), ("+6.0", .num (6) 1),
   ("+7.0", .num (7) 1), ("+8.0", .num (8) 1), ("+9.0", .num (9) 1), ("-0.0", .num (0) 1),
   ("-1.0", .num (-1) 1), ("-2.0", .num (-2) 1), ("-3.0", .num (-3) 1), ("-4.0", .num (-4) 1),
   ("-5.0", .num (-5) 1), ("-6.0", .num (-6) 1), ("-7.0", .num (-7) 1), ("-8.0", .num (-8) 1),
   ("-9.0", .num (-9) 1), (".0e+0", .num (0) 1), (".1e+1", .num (1) 1), (".2e+2", .num (20) 1),
   (".3e+3", .num (300) 1), (".4e+4", .num (4000) 1), (".5e+5", .num (50000) 1), (".6e+6", .num (600000) 1),
   (".7e+7", .num (7000000) 1), (".8e+8", .num (80000000) 1), (".9e+9", .num (900000000) 1), (".00e+0", .num (0) 1),
   (".01e+1", .num (1) 10), (".02e+2", .num (2) 1), (".03e+3", .num (30) 1), (".04e+4", .num (400) 1),
   (".05e+5", .num (5000) 1), (".06e+6", .num (60000) 1), (".07e+7", .num (700000) 1), (".08e+8", .num (8000000) 1),
   (".09e+9", .num (90000000) 1), (".0e+00", .num (0) 1), (".1e+01", .num (1) 1), (".2e+02", .num (20) 1),
   (".3e+03", .num (300) 1), (".4e+04", .num (4000) 1), (".5e+05", .num (50000) 1), (".6e+06", .num (600000) 1),
   (".7e+07", .num (7000000) 1), (".8e+08", .num (80000000) 1), (".9e+09", .num (900000000) 1), (".0E+0", .num (0) 1),
   (".1E+1", .num (1) 1), (".2E+2", .num (20) 1), (".3E+3", .num (300) 1), (".4E+4", .num (4000) 1),
   (".5E+5", .num (50000) 1), (".6E+6", .num (600000) 1), (".7E+7", .num (7000000) 1), (".8E+8", .num (80000000) 1),
   (".9E+9", .num (900000000) 1), (".00E+0", .num (0) 1), (".01E+1", .num (1) 10), (".02E+2", .num (2) 1),
   (".03E+3", .num (30) 1), (".04E+4", .num (400) 1), (".05E+5", .num (5000) 1), (".06E+6", .num (60000) 1),
   (".07E+7", .num (700000) 1), (".08E+8", .num (8000000) 1), (".09E+9", .num (90000000) 1), (".0E+00", .num (0) 1),
   (".1E+01", .num (1) 1), (".2E+02", .num (20) 1), (".3E+03", .num (300) 1), (".4E+04", .num (4000) 1),
   (".5E+05", .num (50000) 1), (".6E+06", .num (600000) 1), (".7E+07", .num (7000000) 1), (".8E+08", .num (80000000) 1),
   (".9E+09", .num (900000000) 1), ("+.0e+0", .num (0) 1), ("+.1e+1", .num (1) 1), ("+.2e+2", .num (20) 1),
   ("+.3e+3", .num (300) 1), ("+.4e+4", .num (4000) 1), ("+.5e+5", .num (50000) 1), ("+.6e+6", .num (600000) 1),
   ("+.7e+7", .num (7000000) 1), ("+.8e+8", .num (80000000) 1), ("+.9e+9", .num (900000000) 1), ("-.0e+0", .num (0) 1),
   ("-.1e+1", .num (-1) 1), ("-.2e+2", .num (-20) 1), ("-.3e+3", .num (-300) 1), ("-.4e+4", .num (-4000) 1),
   ("-.5e+5", .num (-50000) 1), ("-.6e+6", .num (-600000) 1), ("-.7e+7", .num (-7000000) 1), ("-.8e+8", .num (-80000000) 1),
   ("-.9e+9", .num (-900000000) 1), ("0.", .num (0) 1), ("1.", .num (1) 1), ("2.", .num (2) 1),
   ("3.", .num (3) 1), ("4.", .num (4) 1), ("5.", .num (5) 1), ("6.", .num (6) 1),
   ("7.", .num (7) 1), ("8.", .num (8) 1), ("9.", .num (9) 1), ("+0.", .num (0) 1),
   ("+1.", .num (1) 1), ("+2.", .num (2) 1), ("+3.", .num (3) 1), ("+4.", .num (4) 1),
   ("+5.", .num (5) 1), ("+6.", .num (6) 1), ("+7.", .num (7) 1), ("+8.", .num (8) 1),
   ("+9.", .num (9) 1), ("-0.", .num (0) 1), ("-1.", .num (-1) 1), ("-2.", .num (-2) 1),
   ("-3.", .num (-3) 1), ("-4.", .num (-4) 1), ("-5.", .num (-5) 1), ("-6.", .num (-6) 1),
   ("-7.", .num (-7) 1), ("-8.", .num (-8) 1), ("-9.", .num (-9) 1), (".0", .num (0) 1),
   (".1", .num (1) 10), (".2", .num (1) 5), (".3", .num (3) 10), (".4", .num (2) 5),
   (".5", .num (1) 2), (".6", .num (3) 5), (".7", .num (7) 10), (".8", .num (4) 5),
   (".9", .num (9) 10), ("-.0", .num (0) 1), ("-.1", .num (-1) 10), ("-.2", .num (-1) 5),
   ("-.3", .num (-3) 10), ("-.4", .num (-2) 5), ("-.5", .num (-1) 2), ("-.6", .num (-3) 5),
   ("-.7", .num (-7) 10), ("-.8", .num (-4) 5), ("-.9", .num (-9) 10), ("+.0", .num (0) 1),
   ("+.1", .num (1) 10), ("+.2", .num (1) 5), ("+.3", .num (3) 10), ("+.4", .num (2) 5),
   ("+.5", .num (1) 2), ("+.6", .num (3) 5), ("+.7", .num (7) 10), ("+.8", .num (4) 5),
   ("+.9", .num (9) 10), ("+0.0f", .num (0) 1), ("+1.0f", .num (1) 1), ("+2.0f", .num (2) 1),
   ("+3.0f", .num (3) 1), ("+4.0f", .num (4) 1), ("+5.0f", .num (5) 1), ("+6.0f", .num (6) 1),
   ("+7.0f", .num (7) 1), ("+8.0f", .num (8) 1), ("+9.0f", .num (9) 1), ("+0.0F", .num (0) 1),
   ("+1.0F", .num (1) 1), ("+2.0F", .num (2) 1), ("+3.0F", .num (3) 1), ("+4.0F", .num (4) 1),
   ("+5.0F", .num (5) 1), ("+6.0F", .num (6) 1), ("+7.0F", .num (7) 1), ("+8.0F", .num (8) 1),
   ("+9.0F", .num (9) 1), ("+0.0l", .num (0) 1), ("+1.0l", .num (1) 1), ("+2.0l", .num (2) 1),
   ("+3.0l", .num (3) 1), ("+4.0l", .num (4) 1), ("+5.0l", .num (5) 1), ("+6.0l", .num (6) 1),
   ("+7.0l", .num (7) 1), ("+8.0l", .num (8) 1), ("+9.0l", .num (9) 1), ("+0.0L", .num (0) 1),
   ("+1.0L", .num (1) 1), ("+2.0L", .num (2) 1), ("+3.0L", .num (3) 1), ("+4.0L", .num (4) 1),
   ("+5.0L", .num (5) 1), ("+6.0L", .num (6) 1), ("+7.0L", .num (7) 1), ("+8.0L", .num (8) 1),
   ("+9.0L", .num (9) 1), ("-0.0f", .num (0) 1), ("-1.0f", .num (-1) 1), ("-2.0f", .num (-2) 1),
   ("-3.0f", .num (-3) 1), ("-4.0f", .num (-4) 1), ("-5.0f", .num (-5) 1), ("-6.0f", .num (-6) 1),
   ("-7.0f", .num (-7) 1), ("-8.0f", .num (-8) 1), ("-9.0f", .num (-9) 1), ("-0.0F", .num (0) 1),
   ("-1.0F", .num (-1) 1), ("-2.0F", .num (-2) 1), ("-3.0F", .num (-3) 1), ("-4.0F", .num (-4) 1),
   ("-5.0F", .num (-5) 1), ("-6.0F", .num (-6) 1), ("-7.0F", .num (-7) 1), ("-8.0F", .num (-8) 1),
   ("-9.0F", .num (-9) 1), ("-0.0l", .num (0) 1), ("-1.0l", .num (-1) 1), ("-2.0l", .num (-2) 1),
   ("-3.0l", .num (-3) 1), ("-4.0l", .num (-4) 1), ("-5.0l", .num (-5) 1), ("-6.0l", .num (-6) 1),
   ("-7.0l", .num (-7) 1), ("-8.0l", .num (-8) 1), ("-9.0l", .num (-9) 1), ("-0.0L", .num (0) 1),
   ("-1.0L", .num (-1) 1), ("-2.0L", .num (-2) 1), ("-3.0L", .num (-3) 1), ("-4.0L", .num (-4) 1),
   ("-5.0L", .num (-5) 1), ("-6.0L", .num (-6) 1), ("-7.0L", .num (-7) 1), ("-8.0L", .num (-8) 1),
   ("-9.0L", .num (-9) 1), ("+0.0e+1f", .num (0) 1), ("+1.0e+1f", .num (10) 1), ("+2.0e+1f", .num (20) 1),
   ("+3.0e+1f", .num (30) 1), ("+4.0e+1f", .num (40) 1), ("+5.0e+1f", .num (50) 1), ("+6.0e+1f", .num (60) 1),
   ("+7.0e+1f", .num (70) 1), ("+8.0e+1f", .num (80) 1), ("+9.0e+1f", .num (90) 1), ("+0.0E-2F", .num (0) 1),
   ("+1.0E-2F", .num (1) 100), ("+2.0E-2F", .num (1) 50), ("+3.0E-2F", .num (3) 100), ("+4.0E-2F", .num (1) 25),
   ("+5.0E-2F", .num (1) 20), ("+6.0E-2F", .num (3) 50), ("+7.0E-2F", .num (7) 100), ("+8.0E-2F", .num (2) 25),
   ("+9.0E-2F", .num (9) 100), ("+0.0e+3l", .num (0) 1), ("+1.0e+3l", .num (1000) 1), ("+2.0e+3l", .num (2000) 1),
   ("+3.0e+3l", .num (3000) 1), ("+4.0e+3l", .num (4000) 1), ("+5.0e+3l", .num (5000) 1), ("+6.0e+3l", .num (6000) 1),
   ("+7.0e+3l", .num (7000) 1), ("+8.0e+3l", .num (8000) 1), ("+9.0e+3l", .num (9000) 1), ("+0.0E-4L", .num (0) 1),
   ("+1.0E-4L", .num (1) 10000), ("+2.0E-4L", .num (1) 5000), ("+3.0E-4L", .num (3) 10000), ("+4.0E-4L", .num (1) 2500),
   ("+5.0E-4L", .num (1) 2000), ("+6.0E-4L", .num (3) 5000), ("+7.0E-4L", .num (7) 10000), ("+8.0E-4L", .num (1) 1250),
   ("+9.0E-4L", .num (9) 10000), ("-0.0e+5f", .num (0) 1), ("-1.0e+5f", .num (-100000) 1), ("-2.0e+5f", .num (-200000) 1),
   ("-3.0e+5f", .num (-300000) 1), ("-4.0e+5f", .num (-400000) 1), ("-5.0e+5f", .num (-500000) 1), ("-6.0e+5f", .num (-600000) 1),
   ("-7.0e+5f", .num (-700000) 1), ("-8.0e+5f", .num (-800000) 1), ("-9.0e+5f", .num (-900000) 1), ("-0.0E-6F", .num (0) 1),
   ("-1.0E-6F", .num (-1) 1000000), ("-2.0E-6F", .num (-1) 500000), ("-3.0E-6F", .num (-3) 1000000), ("-4.0E-6F", .num (-1) 250000),
   ("-5.0E-6F", .num (-1) 200000), ("-6.0E-6F", .num (-3) 500000), ("-7.0E-6F", .num (-7) 1000000), ("-8.0E-6F", .num (-1) 125000),
   ("-9.0E-6F", .num (-9) 1000000), ("-0.0e+7l", .num (0) 1), ("-1.0e+7l", .num (-10000000) 1), ("-2.0e+7l", .num (-20000000) 1),
   ("-3.0e+7l", .num (-30000000) 1), ("-4.0e+7l", .num (-40000000) 1), ("-5.0e+7l", .num (-50000000) 1), ("-6.0e+7l", .num (-60000000) 1),
   ("-7.0e+7l", .num (-70000000) 1), ("-8.0e+7l", .num (-80000000) 1), ("-9.0e+7l", .num (-90000000) 1), ("-0.0E-8L", .num (0) 1),
   ("-1.0E-8L", .num (-1) 100000000), ("-2.0E-8L", .num (-1) 50000000), ("-3.0E-8L", .num (-3) 100000000), ("-4.0E-8L", .num (-1) 25000000),
   ("-5.0E-8L", .num (-1) 20000000), ("-6.0E-8L", .num (-3) 50000000), ("-7.0E-8L", .num (-7) 100000000), ("-8.0E-8L", .num (-1) 12500000),
   ("-9.0E-8L", .num (-9) 100000000), ("0.1", .num (1) 10), ("0.01", .num (1) 100), ("0.001", .num (1) 1000),
   ("0.0001", .num (1) 10000), ("0.00001", .num (1) 100000), ("0.000001", .num (1) 1000000), ("0.0000001", .num (1) 10000000),
   ("0.00000001", .num (1) 100000000), ("0.000000001", .num (1) 1000000000), ("0.2", .num (1) 5), ("0.02", .num (1) 50),
   ("0.002", .num (1) 500), ("0.0002", .num (1) 5000), ("0.00002", .num (1) 50000), ("0.000002", .num (1) 500000),
   ("0.0000002", .num (1) 5000000), ("0.00000002", .num (1) 50000000), ("0.000000002", .num (1) 500000000), ("0.3", .num (3) 10),
   ("0.03", .num (3) 100), ("0.003", .num (3) 1000), ("0.0003", .num (3) 10000), ("0.00003", .num (3) 100000),
   ("0.000003", .num (3) 1000000), ("0.0000003", .num (3) 10000000), ("0.00000003", .num (3) 100000000), ("0.000000003", .num (3) 1000000000),
   ("0.4", .num (2) 5), ("0.04", .num (1) 25), ("0.004", .num (1) 250), ("0.0004", .num (1) 2500),
   ("0.00004", .num (1) 25000), ("0.000004", .num (1) 250000), ("0.0000004", .num (1) 2500000), ("0.00000004", .num (1) 25000000),
   ("0.000000004", .num (1) 250000000), ("0.5", .num (1) 2), ("0.05", .num (1) 20), ("0.005", .num (1) 200),
   ("0.0005", .num (1) 2000), ("0.00005", .num (1) 20000), ("0.000005", .num (1) 200000), ("0.0000005", .num (1) 2000000),
   ("0.00000005", .num (1) 20000000), ("0.000000005", .num (1) 200000000), ("0.6", .num (3) 5), ("0.06", .num (3) 50),
   ("0.006", .num (3) 500), ("0.0006", .num (3) 5000), ("0.00006", .num (3) 50000), ("0.000006", .num (3) 500000),
   ("0.0000006", .num (3) 5000000), ("0.00000006", .num (3) 50000000), ("0.000000006", .num (3) 500000000), ("0.7", .num (7) 10),
   ("0.07", .num (7) 100), ("0.007", .num (7) 1000), ("0.0007", .num (7) 10000), ("0.00007", .num (7) 100000),
   ("0.000007", .num (7) 1000000), ("0.0000007", .num (7) 10000000), ("0.00000007", .num (7) 100000000), ("0.000000007", .num (7) 1000000000),
   ("0.8", .num (4) 5), ("0.08", .num (2) 25), ("0.008", .num (1) 125), ("0.0008", .num (1) 1250),
   ("0.00008", .num (1) 12500), ("0.000008", .num (1) 125000), ("0.0000008", .num (1) 1250000), ("0.00000008", .num (1) 12500000),
   ("0.000000008", .num (1) 125000000), ("0.9", .num (9) 10), ("0.09", .num (9) 100), ("0.009", .num (9) 1000),
   ("0.0009", .num (9) 10000), ("0.00009", .num (9) 100000), ("0.000009", .num (9) 1000000), ("0.0000009", .num (9) 10000000),
   ("0.00000009", .num (9) 100000000), ("0.000000009", .num (9) 1000000000), ("+0.1", .num (1) 10), ("+0.01", .num (1) 100),
   ("+0.001", .num (1) 1000), ("+0.0001", .num (1) 10000), ("+0.00001", .num (1) 100000), ("+0.000001", .num (1) 1000000),
   ("+0.0000001", .num (1) 10000000), ("+0.00000001", .num (1) 100000000), ("+0.000000001", .num (1) 1000000000), ("+0.2", .num (1) 5),
   ("+0.02", .num (1) 50), ("+0.002", .num (1) 500), ("+0.0002", .num (1) 5000), ("+0.00002", .num (1) 50000),
   ("+0.000002", .num (1) 500000), ("+0.0000002", .num (1) 5000000), ("+0.00000002", .num (1) 50000000), ("+0.000000002", .num (1) 500000000),
   ("+0.3", .num (3) 10), ("+0.03", .num (3) 100), ("+0.003", .num (3) 1000), ("+0.0003", .num (3) 10000),
   ("+0.00003", .num (3) 100000), ("+0.000003", .num (3) 1000000), ("+0.0000003", .num (3) 10000000), ("+0.00000003", .num (3) 100000000),
   ("+0.000000003", .num (3) 1000000000), ("+0.4", .num (2) 5), ("+0.04", .num (1) 25), ("+0.004", .num (1) 250),
   ("+0.0004", .num (1) 2500), ("+0.00004", .num (1) 25000), ("+0.000004", .num (1) 250000), ("+0.0000004", .num (1) 2500000),
   ("+0.00000004", .num (1) 25000000), ("+0.000000004", .num (1) 250000000), ("+0.5", .num (1) 2), ("+0.05", .num (1) 20),
   ("+0.005", .num (1) 200), ("+0.0005", .num (1) 2000), ("+0.00005", .num (1) 20000), ("+0.000005", .num (1) 200000),
   ("+0.0000005", .num (1) 2000000), ("+0.00000005", .num (1) 20000000), ("+0.000000005", .num (1) 200000000), ("+0.6", .num (3) 5),
   ("+0.06", .num (3) 50), ("+0.006", .num (3) 500), ("+0.0006", .num (3) 5000), ("+0.00006", .num (3) 50000),
   ("+0.000006", .num (3) 500000), ("+0.0000006", .num (3) 5000000), ("+0.00000006", .num (3) 50000000), ("+0.000000006", .num (3) 500000000),
   ("+0.7", .num (7) 10), ("+0.07", .num (7) 100), ("+0.007", .num (7) 1000), ("+0.0007", .num (7) 10000),
   ("+0.00007", .num (7) 100000), ("+0.000007", .num (7) 1000000), ("+0.0000007", .num (7) 10000000), ("+0.00000007", .num (7) 100000000),
   ("+0.000000007", .num (7) 1000000000), ("+0.8", .num (4) 5), ("+0.08", .num (2) 25), ("+0.008", .num (1) 125),
   ("+0.0008", .num (1) 1250), ("+0.00008", .num (1) 12500), ("+0.000008", .num (1) 125000), ("+0.0000008", .num (1) 1250000),
   ("+0.00000008", .num (1) 12500000), ("+0.000000008", .num (1) 125000000), ("+0.9", .num (9) 10), ("+0.09", .num (9) 100),
   ("+0.009", .num (9) 1000), ("+0.0009", .num (9) 10000), ("+0.00009", .num (9) 100000), ("+0.000009", .num (9) 1000000),
   ("+0.0000009", .num (9) 10000000), ("+0.00000009", .num (9) 100000000), ("+0.000000009", .num (9) 1000000000), ("-0.1", .num (-1) 10),
   ("-0.01", .num (-1) 100), ("-0.001", .num (-1) 1000), ("-0.0001", .num (-1) 10000), ("-0.00001", .num (-1) 100000),
   ("-0.000001", .num (-1) 1000000), ("-0.0000001", .num (-1) 10000000), ("-0.00000001", .num (-1) 100000000), ("-0.000000001", .num (-1) 1000000000),
   ("-0.2", .num (-1) 5), ("-0.02", .num (-1) 50), ("-0.002", .num (-1) 500), ("-0.0002", .num (-1) 5000),
   ("-0.00002", .num (-1) 50000), ("-0.000002", .num (-1) 500000), ("-0.0000002", .num (-1) 5000000), ("-0.00000002", .num (-1) 50000000),
   ("-0.000000002", .num (-1) 500000000), ("-0.3", .num (-3) 10), ("-0.03", .num (-3) 100), ("-0.003", .num (-3) 1000),
   ("-0.0003", .num (-3) 10000), ("-0.00003", .num (-3) 100000), ("-0.000003", .num (-3) 1000000), ("-0.0000003", .num (-3) 10000000),
   ("-0.00000003", .num (-3) 100000000), ("-0.000000003", .num (-3) 1000000000), ("-0.4", .num (-2) 5), ("-0.04", .num (-1) 25),
   ("-0.004", .num (-1) 250), ("-0.0004", .num (-1) 2500), ("-0.00004", .num (-1) 25000), ("-0.000004", .num (-1) 250000),
   ("-0.0000004", .num (-1) 2500000), ("-0.00000004", .num (-1) 25000000), ("-0.000000004", .num (-1) 250000000), ("-0.5", .num (-1) 2),
   ("-0.05", .num (-1) 20), ("-0.005", .num (-1) 200), ("-0.0005", .num (-1) 2000), ("-0.00005", .num (-1) 20000),
   ("-0.000005", .num (-1) 200000), ("-0.0000005", .num (-1) 2000000), ("-0.00000005", .num (-1) 20000000), ("-0.000000005", .num (-1) 200000000),
   ("-0.6", .num (-3) 5), ("-0.06", .num (-3) 50), ("-0.006", .num (-3) 500), ("-0.0006", .num (-3) 5000),
   ("-0.00006", .num (-3) 50000), ("-0.000006", .num (-3) 500000), ("-0.0000006", .num (-3) 5000000), ("-0.00000006", .num (-3) 50000000),
   ("-0.000000006", .num (-3) 500000000), ("-0.7", .num (-7) 10), ("-0.07", .num (-7) 100), ("-0.007", .num (-7) 1000),
   ("-0.0007", .num (-7) 10000), ("-0.00007", .num (-7) 100000), ("-0.000007", .num (-7) 1000000), ("-0.0000007", .num (-7) 10000000),
   ("-0.00000007", .num (-7) 100000000), ("-0.000000007", .num (-7) 1000000000), ("-0.8", .num (-4) 5), ("-0.08", .num (-2) 25),
   ("-0.008", .num (-1) 125), ("-0.0008", .num (-1) 1250), ("-0.00008", .num (-1) 12500), ("-0.000008", .num (-1) 125000),
   ("-0.0000008", .num (-1) 1250000), ("-0.00000008", .num (-1) 12500000), ("-0.000000008", .num (-1) 125000000), ("-0.9", .num (-9) 10),
   ("-0.09", .num (-9) 100), ("-0.009", .num (-9) 1000), ("-0.0009", .num (-9) 10000), ("-0.00009", .num (-9) 100000),
   ("-0.000009", .num (-9) 1000000), ("-0.0000009", .num (-9) 10000000), ("-0.00000009", .num (-9) 100000000), ("-0.000000009", .num (-9) 1000000000),
   ("1.01", .num (101) 100), ("0.101", .num (101) 1000), ("1.0101", .num (10101) 10000), ("0.10101", .num (10101) 100000),
   ("1.010101", .num (1010101) 1000000), ("0.1010101", .num (1010101) 10000000), ("1.01010101", .num (101010101) 100000000), ("1.101010101", .num (1101010101) 1000000000),
   ("2.02", .num (101) 50), ("0.202", .num (101) 500), ("2.0202", .num (10101) 5000), ("0.20202", .num (10101) 50000),
   ("2.020202", .num (1010101) 500000), ("0.2020202", .num (1010101) 5000000), ("2.02020202", .num (101010101) 50000000), ("2.202020202", .num (1101010101) 500000000),
   ("3.03", .num (303) 100), ("0.303", .num (303) 1000), ("3.0303", .num (30303) 10000), ("0.30303", .num (30303) 100000),
   ("3.030303", .num (3030303) 1000000), ("0.3030303", .num (3030303) 10000000), ("3.03030303", .num (303030303) 100000000), ("3.303030303", .num (3303030303) 1000000000),
   ("4.04", .num (101) 25), ("0.404", .num (101) 250), ("4.0404", .num (10101) 2500), ("0.40404", .num (10101) 25000),
   ("4.040404", .num (1010101) 250000), ("0.4040404", .num (1010101) 2500000), ("4.04040404", .num (101010101) 25000000), ("4.404040404", .num (1101010101) 250000000),
   ("5.05", .num (101) 20), ("0.505", .num (101) 200), ("5.0505", .num (10101) 2000), ("0.50505", .num (10101) 20000),
   ("5.050505", .num (1010101) 200000), ("0.5050505", .num (1010101) 2000000), ("5.05050505", .num (101010101) 20000000), ("5.505050505", .num (1101010101) 200000000),
   ("6.06", .num (303) 50), ("0.606", .num (303) 500), ("6.0606", .num (30303) 5000), ("0.60606", .num (30303) 50000),
   ("6.060606", .num (3030303) 500000), ("0.6060606", .num (3030303) 5000000), ("6.06060606", .num (303030303) 50000000), ("6.606060606", .num (3303030303) 500000000),
   ("7.07", .num (707) 100), ("0.707", .num (707) 1000), ("7.0707", .num (70707) 10000), ("0.70707", .num (70707) 100000),
   ("7.070707", .num (7070707) 1000000), ("0.7070707", .num (7070707) 10000000), ("7.07070707", .num (707070707) 100000000), ("7.707070707", .num (7707070707) 1000000000),
   ("8.08", .num (202) 25), ("0.808", .num (101) 125), ("8.0808", .num (10101) 1250), ("0.80808", .num (10101) 12500),
   ("8.080808", .num (1010101) 125000), ("0.8080808", .num (1010101) 1250000), ("8.08080808", .num (101010101) 12500000), ("8.808080808", .num (1101010101) 125000000),
   ("9.09", .num (909) 100), ("0.909", .num (909) 1000), ("9.0909", .num (90909) 10000), ("0.90909", .num (90909) 100000),
   ("9.090909", .num (9090909) 1000000), ("0.9090909", .num (9090909) 10000000), ("9.09090909", .num (909090909) 100000000), ("9.909090909", .num (9909090909) 1000000000),
   ("+1.01", .num (101) 100), ("+0.101", .num (101) 1000), ("+1.0101", .num (10101) 10000), ("+0.10101", .num (10101) 100000),
   ("+1.010101", .num (1010101) 1000000), ("+0.1010101", .num (1010101) 10000000), ("+1.01010101", .num (101010101) 100000000), ("+1.101010101", .num (1101010101) 1000000000),
   ("+2.02", .num (101) 50), ("+0.202", .num (101) 500), ("+2.0202", .num (10101) 5000), ("+0.20202", .num (10101) 50000),
   ("+2.020202", .num (1010101) 500000), ("+0.2020202", .num (1010101) 5000000), ("+2.02020202", .num (101010101) 50000000), ("+2.202020202", .num (1101010101) 500000000),
   ("+3.03", .num (303) 100), ("+0.303", .num (303) 1000), ("+3.0303", .num (30303) 10000), ("+0.30303", .num (30303) 100000),
   ("+3.030303", .num (3030303) 1000000), ("+0.3030303", .num (3030303) 10000000), ("+3.03030303", .num (303030303) 100000000), ("+3.303030303", .num (3303030303) 1000000000),
   ("+4.04", .num (101) 25), ("+0.404", .num (101) 250), ("+4.0404", .num (10101) 2500), ("+0.40404", .num (10101) 25000),
   ("+4.040404", .num (1010101) 250000), ("+0.4040404", .num (1010101) 2500000), ("+4.04040404", .num (101010101) 25000000), ("+4.404040404", .num (1101010101) 250000000),
   ("+5.05", .num (101) 20), ("+0.505", .num (101) 200), ("+5.0505", .num (10101) 2000), ("+0.50505", .num (10101) 20000),
   ("+5.050505", .num (1010101) 200000), ("+0.5050505", .num (1010101) 2000000), ("+5.05050505", .num (101010101) 20000000), ("+5.505050505", .num (1101010101) 200000000),
   ("+6.06", .num (303) 50), ("+0.606", .num (303) 500), ("+6.0606", .num (30303) 5000), ("+0.60606", .num (30303) 50000),
   ("+6.060606", .num (3030303) 500000), ("+0.6060606", .num (3030303) 5000000), ("+6.06060606", .num (303030303) 50000000), ("+6.606060606", .num (3303030303) 500000000),
   ("+7.07", .num (707) 100), ("+0.707", .num (707) 1000), ("+7.0707", .num (70707) 10000), ("+0.70707", .num (70707) 100000),
   ("+7.070707", .num (7070707) 1000000), ("+0.7070707", .num (7070707) 10000000), ("+7.07070707", .num (707070707) 100000000), ("+7.707070707", .num (7707070707) 1000000000),
   ("+8.08", .num (202) 25), ("+0.808", .num (101) 125), ("+8.0808", .num (10101) 1250), ("+0.80808", .num (10101) 12500),
   ("+8.080808", .num (1010101) 125000), ("+0.8080808", .num (1010101) 1250000), ("+8.08080808", .num (101010101) 12500000), ("+8.808080808", .num (1101010101) 125000000),
   ("+9.09", .num (909) 100), ("+0.909", .num (909) 1000), ("+9.0909", .num (90909) 10000), ("+0.90909", .num (90909) 100000),
   ("+9.090909", .num (9090909) 1000000), ("+0.9090909", .num (9090909) 10000000), ("+9.09090909", .num (909090909) 100000000), ("+9.909090909", .num (9909090909) 1000000000),
   ("-1.01", .num (-101) 100), ("-0.101", .num (-101) 1000), ("-1.0101", .num (-10101) 10000), ("-0.10101", .num (-10101) 100000),
   ("-1.010101", .num (-1010101) 1000000), ("-0.1010101", .num (-1010101) 10000000), ("-1.01010101", .num (-101010101) 100000000), ("-1.101010101", .num (-1101010101) 1000000000),
   ("-2.02", .num (-101) 50), ("-0.202", .num (-101) 500), ("-2.0202", .num (-10101) 5000), ("-0.20202", .num (-10101) 50000),
   ("-2.020202", .num (-1010101) 500000), ("-0.2020202", .num (-1010101) 5000000), ("-2.02020202", .num (-101010101) 50000000), ("-2.202020202", .num (-1101010101) 500000000),
   ("-3.03", .num (-303) 100), ("-0.303", .num (-303) 1000), ("-3.0303", .num (-30303) 10000), ("-0.30303", .num (-30303) 100000),
   ("-3.030303", .num (-3030303) 1000000), ("-0.3030303", .num (-3030303) 10000000), ("-3.03030303", .num (-303030303) 100000000), ("-3.303030303", .num (-3303030303) 1000000000),
   ("-4.04", .num (-101) 25), ("-0.404", .num (-101) 250), ("-4.0404", .num (-10101) 2500), ("-0.40404", .num (-10101) 25000),
   ("-4.040404", .num (-1010101) 250000), ("-0.4040404", .num (-1010101) 2500000), ("-4.04040404", .num (-101010101) 25000000), ("-4.404040404", .num (-1101010101) 250000000),
   ("-5.05", .num (-101) 20), ("-0.505", .num (-101) 200), ("-5.0505", .num (-10101) 2000), ("-0.50505", .num (-10101) 20000),
   ("-5.050505", .num (-1010101) 200000), ("-0.5050505", .num (-1010101) 2000000), ("-5.05050505", .num (-101010101) 20000000), ("-5.505050505", .num (-1101010101) 200000000),
   ("-6.06", .num (-303) 50), ("-0.606", .num (-303) 500), ("-6.0606", .num (-30303) 5000), ("-0.60606", .num (-30303) 50000),
   ("-6.060606", .num (-3030303) 500000), ("-0.6060606", .num (-3030303) 5000000), ("-6.06060606", .num (-303030303) 50000000), ("-6.606060606", .num (-3303030303) 500000000),
   ("-7.07", .num (-707) 100), ("-0.707", .num (-707) 1000), ("-7.0707", .num (-70707) 10000), ("-0.70707", .num (-70707) 100000),
   ("-7.070707", .num (-7070707) 1000000), ("-0.7070707", .num (-7070707) 10000000), ("-7.07070707", .num (-707070707) 100000000), ("-7.707070707", .num (-7707070707) 1000000000),
   ("-8.08", .num (-202) 25), ("-0.808", .num (-101) 125), ("-8.0808", .num (-10101) 1250), ("-0.80808", .num (-10101) 12500),
   ("-8.080808", .num (-1010101) 125000), ("-0.8080808", .num (-1010101) 1250000), ("-8.08080808", .num (-101010101) 12500000), ("-8.808080808", .num (-1101010101) 125000000),
   ("-9.09", .num (-909) 100), ("-0.909", .num (-909) 1000), ("-9.0909", .num (-90909) 10000), ("-0.90909", .num (-90909) 100000),
   ("-9.090909", .num (-9090909) 1000000), ("-0.9090909", .num (-9090909) 10000000), ("-9.09090909", .num (-909090909) 100000000), ("-9.909090909", .num (-9909090909) 1000000000),
   ("+inf", .inf false), ("-inf", .inf true), ("+INF", .inf false), ("-INF", .inf true),
   ("+1.0#inf", .inf false), ("-1.0#inf", .inf true), ("+1.0#INF", .inf false), ("-1.0#INF", .inf true),
   ("+infinity", .inf false), ("-infinity", .inf true), ("+INFINITY", .inf false), ("-INFINITY", .inf true),
   ("+1.0#infinity", .inf false), ("-1.0#infinity", .inf true), ("+1.0#INFINITY", .inf false), ("-1.0#INFINITY", .inf true),
   ("NAN", .nan), ("nan", .nan), ("1.0#NAN", .nan), ("1.0#nan", .nan)]

/-- `bad_list` of `test_double_convert`. -/
def badDoubles : List String :=
  ["1234567.8A", "1234567.A", "12345A67.8", "A1234567.8A", "1234567.8Ae",
   "1234567.AE+100", "12345A67.8e+100", "A1234567.8AE+100", "--1.234e+10", "++1.234e+10",
   "1.234e+10-", "1.234e+10+", "1.234e++10", "1.234E--10", "1.e++10",
   "1.E--10", "1..234e+10", "1.23.4E-10", "1.234e-1.0", "1.23x",
   "1.23e+100y", "", "123+", "123-", "123.+",
   "123.-", "123+.", "123-.", "123..123", "123.-123",
   "123.+123", "123-.0", "+", "-", "+.",
   "-.", ".+", ".-", ".", "++",
   "--", "++.", "--.", ".++", ".--",
   "..", "+f", "-f", "+.f", "-.f",
   ".+f", ".-f", ".f", "+l", "-l",
   "+.l", "-.l", ".+l", ".-l", ".l",
   ".+0", ".+1", ".+2", ".+3", ".+4",
   ".+5", ".+6", ".+7", ".+8", ".+9",
   ".-0", ".-1", ".-2", ".-3", ".-4",
   ".-5", ".-6", ".-7", ".-8", ".-9",
   "..+0", "..+1", "..+2", "..+3", "..+4",
   "..+5", "..+6", "..+7", "..+8", "..+9",
   "..-0", "..-1", "..-2", "..-3", "..-4",
   "..-5", "..-6", "..-7", "..-8", "..-9",
   ".+0f", ".+1F", ".+2f", ".+3F", ".+4f",
   ".+5F", ".+6f", ".+7F", ".+8f", ".+9F",
   ".-0l", ".-1L", ".-2l", ".-3L", ".-4l",
   ".-5L", ".-6l", ".-7L", ".-8l", ".-9L"]

/-- `fract10_str` of `test_double_convert`, from entry 1 on. -/
def tens : List String :=
  ["1.0E+001", "1.0E+002", "1.0E+003", "1.0E+004", "1.0E+005", "1.0E+006", "1.0E+007", "1.0E+008", "1.0E+009", "1.0E+010",
   "1.0E+011", "1.0E+012", "1.0E+013", "1.0E+014", "1.0E+015", "1.0E+016", "1.0E+017", "1.0E+018", "1.0E+019", "1.0E+020",
   "1.0E+021", "1.0E+022", "1.0E+023", "1.0E+024", "1.0E+025", "1.0E+026", "1.0E+027", "1.0E+028", "1.0E+029", "1.0E+030",
   "1.0E+031", "1.0E+032", "1.0E+033", "1.0E+034", "1.0E+035", "1.0E+036", "1.0E+037", "1.0E+038", "1.0E+039", "1.0E+040",
   "1.0E+041", "1.0E+042", "1.0E+043", "1.0E+044", "1.0E+045", "1.0E+046", "1.0E+047", "1.0E+048", "1.0E+049", "1.0E+050",
   "1.0E+051", "1.0E+052", "1.0E+053", "1.0E+054", "1.0E+055", "1.0E+056", "1.0E+057", "1.0E+058", "1.0E+059", "1.0E+060",
   "1.0E+061", "1.0E+062", "1.0E+063", "1.0E+064", "1.0E+065", "1.0E+066", "1.0E+067", "1.0E+068", "1.0E+069", "1.0E+070",
   "1.0E+071", "1.0E+072", "1.0E+073", "1.0E+074", "1.0E+075", "1.0E+076", "1.0E+077", "1.0E+078", "1.0E+079", "1.0E+080",
   "1.0E+081", "1.0E+082", "1.0E+083", "1.0E+084", "1.0E+085", "1.0E+086", "1.0E+087", "1.0E+088", "1.0E+089", "1.0E+090",
   "1.0E+091", "1.0E+092", "1.0E+093", "1.0E+094", "1.0E+095", "1.0E+096", "1.0E+097", "1.0E+098", "1.0E+099", "1.0E+100",
   "1.0E+101", "1.0E+102", "1.0E+103", "1.0E+104", "1.0E+105", "1.0E+106", "1.0E+107", "1.0E+108", "1.0E+109", "1.0E+110",
   "1.0E+111", "1.0E+112", "1.0E+113", "1.0E+114", "1.0E+115", "1.0E+116", "1.0E+117", "1.0E+118", "1.0E+119", "1.0E+120",
   "1.0E+121", "1.0E+122", "1.0E+123", "1.0E+124", "1.0E+125", "1.0E+126", "1.0E+127", "1.0E+128", "1.0E+129", "1.0E+130",
   "1.0E+131", "1.0E+132", "1.0E+133", "1.0E+134", "1.0E+135", "1.0E+136", "1.0E+137", "1.0E+138", "1.0E+139", "1.0E+140",
   "1.0E+141", "1.0E+142", "1.0E+143", "1.0E+144", "1.0E+145", "1.0E+146", "1.0E+147", "1.0E+148", "1.0E+149", "1.0E+150",
   "1.0E+151", "1.0E+152", "1.0E+153", "1.0E+154", "1.0E+155", "1.0E+156", "1.0E+157", "1.0E+158", "1.0E+159", "1.0E+160",
   "1.0E+161", "1.0E+162", "1.0E+163", "1.0E+164", "1.0E+165", "1.0E+166", "1.0E+167", "1.0E+168", "1.0E+169", "1.0E+170",
   "1.0E+171", "1.0E+172", "1.0E+173", "1.0E+174", "1.0E+175", "1.0E+176", "1.0E+177", "1.0E+178", "1.0E+179", "1.0E+180",
   "1.0E+181", "1.0E+182", "1.0E+183", "1.0E+184", "1.0E+185", "1.0E+186", "1.0E+187", "1.0E+188", "1.0E+189", "1.0E+190",
   "1.0E+191", "1.0E+192", "1.0E+193", "1.0E+194", "1.0E+195", "1.0E+196", "1.0E+197", "1.0E+198", "1.0E+199", "1.0E+200",
   "1.0E+201", "1.0E+202", "1.0E+203", "1.0E+204", "1.0E+205", "1.0E+206", "1.0E+207", "1.0E+208", "1.0E+209", "1.0E+210",
   "1.0E+211", "1.0E+212", "1.0E+213", "1.0E+214", "1.0E+215", "1.0E+216", "1.0E+217", "1.0E+218", "1.0E+219", "1.0E+220",
   "1.0E+221", "1.0E+222", "1.0E+223", "1.0E+224", "1.0E+225", "1.0E+226", "1.0E+227", "1.0E+228", "1.0E+229", "1.0E+230",
   "1.0E+231", "1.0E+232", "1.0E+233", "1.0E+234", "1.0E+235", "1.0E+236", "1.0E+237", "1.0E+238", "1.0E+239", "1.0E+240",
   "1.0E+241", "1.0E+242", "1.0E+243", "1.0E+244", "1.0E+245", "1.0E+246", "1.0E+247", "1.0E+248", "1.0E+249", "1.0E+250",
   "1.0E+251", "1.0E+252", "1.0E+253", "1.0E+254", "1.0E+255", "1.0E+256", "1.0E+257", "1.0E+258", "1.0E+259", "1.0E+260",
   "1.0E+261", "1.0E+262", "1.0E+263", "1.0E+264", "1.0E+265", "1.0E+266", "1.0E+267", "1.0E+268", "1.0E+269", "1.0E+270",
   "1.0E+271", "1.0E+272", "1.0E+273", "1.0E+274", "1.0E+275", "1.0E+276", "1.0E+277", "1.0E+278", "1.0E+279", "1.0E+280",
   "1.0E+281", "1.0E+282", "1.0E+283", "1.0E+284", "1.0E+285", "1.0E+286", "1.0E+287", "1.0E+288", "1.0E+289", "1.0E+290",
   "1.0E+291", "1.0E+292", "1.0E+293", "1.0E+294", "1.0E+295", "1.0E+296", "1.0E+297", "1.0E+298", "1.0E+299", "1.0E+300",
   "1.0E+301", "1.0E+302", "1.0E+303", "1.0E+304", "1.0E+305", "1.0E+306", "1.0E+307", "1.0E+308"]

/-- `dbl_str_list` and `dbl_list` of `test_double_convert`. -/
def fracs : List (String × Expect) :=
  [("0.0", .num (0) 1), ("1.0E+001", .num (10) 1), ("1.0E+002", .num (100) 1), ("1.0E+003", .num (1000) 1),
   ("1.0E+004", .num (10000) 1), ("1.0E+005", .num (100000) 1), ("1.0E+006", .num (1000000) 1), ("1.0E+007", .num (10000000) 1),
   ("1.0E+008", .num (100000000) 1), ("1.0E+009", .num (1000000000) 1), ("1.0E+010", .num (10000000000) 1), ("1.0E+011", .num (100000000000) 1),
   ("1.0E+012", .num (1000000000000) 1), ("1.0E+013", .num (10000000000000) 1), ("1.0E+014", .num (100000000000000) 1), ("1.0E+015", .num (1000000000000000) 1),
   ("1.0E+016", .num (10000000000000000) 1), ("1.0E+017", .num (100000000000000000) 1), ("1.0E+018", .num (1000000000000000000) 1), ("1.0E+019", .num (10000000000000000000) 1),
   ("1.0E+020", .num (100000000000000000000) 1), ("1.0E+021", .num (1000000000000000000000) 1), ("1.0E+022", .num (10000000000000000000000) 1), ("1.0E+023", .num (100000000000000000000000) 1),
   ("1.0E+024", .num (1000000000000000000000000) 1), ("1.0E+025", .num (10000000000000000000000000) 1), ("1.0E+026", .num (100000000000000000000000000) 1), ("1.0E+027", .num (1000000000000000000000000000) 1),
   ("1.0E+028", .num (10000000000000000000000000000) 1), ("1.0E+029", .num (100000000000000000000000000000) 1), ("1.0E+030", .num (1000000000000000000000000000000) 1), ("1.0E+031", .num (10000000000000000000000000000000) 1),
   ("1.0E+032", .num (100000000000000000000000000000000) 1), ("1.0E+033", .num (1000000000000000000000000000000000) 1), ("1.0E+034", .num (10000000000000000000000000000000000) 1), ("1.0E+035", .num (100000000000000000000000000000000000) 1),
   ("1.0E+036", .num (1000000000000000000000000000000000000) 1), ("1.0E+037", .num (10000000000000000000000000000000000000) 1), ("1.0E+038", .num (100000000000000000000000000000000000000) 1), ("1.0E+039", .num (1000000000000000000000000000000000000000) 1),
   ("1.0E+040", .num (10000000000000000000000000000000000000000) 1), ("1.0E+041", .num (100000000000000000000000000000000000000000) 1), ("1.0E+042", .num (1000000000000000000000000000000000000000000) 1), ("1.0E+043", .num (10000000000000000000000000000000000000000000) 1),
   ("1.0E+044", .num (100000000000000000000000000000000000000000000) 1), ("1.0E+045", .num (1000000000000000000000000000000000000000000000) 1), ("1.0E+046", .num (10000000000000000000000000000000000000000000000) 1), ("1.0E+047", .num (100000000000000000000000000000000000000000000000) 1),
   ("1.0E+048", .num (1000000000000000000000000000000000000000000000000) 1), ("1.0E+049", .num (10000000000000000000000000000000000000000000000000) 1), ("1.0E+050", .num (100000000000000000000000000000000000000000000000000) 1), ("1.0E+051", .num (1000000000000000000000000000000000000000000000000000) 1),
   ("1.0E+052", .num (10000000000000000000000000000000000000000000000000000) 1), ("1.0E+053", .num (100000000000000000000000000000000000000000000000000000) 1), ("1.0E+054", .num (1000000000000000000000000000000000000000000000000000000) 1), ("1.0E+055", .num (10000000000000000000000000000000000000000000000000000000) 1),
   ("1.0E+056", .num (100000000000000000000000000000000000000000000000000000000) 1), ("1.0E+057", .num (1000000000000000000000000000000000000000000000000000000000) 1), ("1.0E+058", .num (10000000000000000000000000000000000000000000000000000000000) 1), ("1.0E+059", .num (100000000000000000000000000000000000000000000000000000000000) 1),
   ("1.0E+060", .num (1000000000000000000000000000000000000000000000000000000000000) 1), ("1.0E+061", .num (10000000000000000000000000000000000000000000000000000000000000) 1), ("1.0E+062", .num (100000000000000000000000000000000000000000000000000000000000000) 1), ("1.0E+063", .num (1000000000000000000000000000000000000000000000000000000000000000) 1),
   ("1.0E+064", .num (10000000000000000000000000000000000000000000000000000000000000000) 1), ("1.0E+065", .num (100000000000000000000000000000000000000000000000000000000000000000) 1), ("1.0E+066", .num (1000000000000000000000000000000000000000000000000000000000000000000) 1), ("1.0E+067", .num (10000000000000000000000000000000000000000000000000000000000000000000) 1),
   ("1.0E+068", .num (100000000000000000000000000000000000000000000000000000000000000000000) 1), ("1.0E+069", .num (1000000000000000000000000000000000000000000000000000000000000000000000) 1), ("1.0E+070", .num (10000000000000000000000000000000000000000000000000000000000000000000000) 1), ("1.0E+071", .num (100000000000000000000000000000000000000000000000000000000000000000000000) 1),
   ("1.0E+072", .num (1000000000000000000000000000000000000000000000000000000000000000000000000) 1), ("1.0E+073", .num (10000000000000000000000000000000000000000000000000000000000000000000000000) 1), ("1.0E+074", .num (100000000000000000000000000000000000000000000000000000000000000000000000000) 1), ("1.0E+075", .num (1000000000000000000000000000000000000000000000000000000000000000000000000000) 1),
   ("1.0E+076", .num (10000000000000000000000000000000000000000000000000000000000000000000000000000) 1), ("1.0E+077", .num (100000000000000000000000000000000000000000000000000000000000000000000000000000) 1), ("1.0E+078", .num (1000000000000000000000000000000000000000000000000000000000000000000000000000000) 1), ("1.0E+079", .num (10000000000000000000000000000000000000000000000000000000000000000000000000000000) 1),
   ("1.0E+080", .num (100000000000000000000000000000000000000000000000000000000000000000000000000000000) 1), ("1.0E+081", .num (1000000000000000000000000000000000000000000000000000000000000000000000000000000000) 1), ("1.0E+082", .num (10000000000000000000000000000000000000000000000000000000000000000000000000000000000) 1), ("1.0E+083", .num (100000000000000000000000000000000000000000000000000000000000000000000000000000000000) 1),
   ("1.0E+084", .num (1000000000000000000000000000000000000000000000000000000000000000000000000000000000000) 1), ("1.0E+085", .num (10000000000000000000000000000000000000000000000000000000000000000000000000000000000000) 1), ("1.0E+086", .num (100000000000000000000000000000000000000000000000000000000000000000000000000000000000000) 1), ("1.0E+087", .num (1000000000000000000000000000000000000000000000000000000000000000000000000000000000000000) 1),
   ("1.0E+088", .num (10000000000000000000000000000000000000000000000000000000000000000000000000000000000000000) 1), ("1.0E+089", .num (100000000000000000000000000000000000000000000000000000000000000000000000000000000000000000) 1), ("1.0E+090", .num (1000000000000000000000000000000000000000000000000000000000000000000000000000000000000000000) 1), ("1.0E+091", .num (10000000000000000000000000000000000000000000000000000000000000000000000000000000000000000000) 1),
   ("1.0E+092", .num (100000000000000000000000000000000000000000000000000000000000000000000000000000000000000000000) 1), ("1.0E+093", .num (1000000000000000000000000000000000000000000000000000000000000000000000000000000000000000000000) 1), ("1.0E+094", .num (10000000000000000000000000000000000000000000000000000000000000000000000000000000000000000000000) 1), ("1.0E+095", .num (100000000000000000000000000000000000000000000000000000000000000000000000000000000000000000000000) 1),
   ("1.0E+096", .num (1000000000000000000000000000000000000000000000000000000000000000000000000000000000000000000000000) 1), ("1.0E+097", .num (10000000000000000000000000000000000000000000000000000000000000000000000000000000000000000000000000) 1), ("1.0E+098", .num (100000000000000000000000000000000000000000000000000000000000000000000000000000000000000000000000000) 1), ("1.0E+099", .num (1000000000000000000000000000000000000000000000000000000000000000000000000000000000000000000000000000) 1),
   ("1.0E+100", .num (10000000000000000000000000000000000000000000000000000000000000000000000000000000000000000000000000000) 1), ("1.0E+101", .num (100000000000000000000000000000000000000000000000000000000000000000000000000000000000000000000000000000) 1), ("1.0E+102", .num (1000000000000000000000000000000000000000000000000000000000000000000000000000000000000000000000000000000) 1), ("1.0E+103", .num (10000000000000000000000000000000000000000000000000000000000000000000000000000000000000000000000000000000) 1),
   ("1.0E+104", .num (100000000000000000000000000000000000000000000000000000000000000000000000000000000000000000000000000000000) 1), ("1.0E+105", .num (1000000000000000000000000000000000000000000000000000000000000000000000000000000000000000000000000000000000) 1), ("1.0E+106", .num (10000000000000000000000000000000000000000000000000000000000000000000000000000000000000000000000000000000000) 1), ("1.0E+107", .num (100000000000000000000000000000000000000000000000000000000000000000000000000000000000000000000000000000000000) 1),
   ("1.0E+108", .num (1000000000000000000000000000000000000000000000000000000000000000000000000000000000000000000000000000000000000) 1), ("1.0E+109", .num (10000000000000000000000000000000000000000000000000000000000000000000000000000000000000000000000000000000000000) 1), ("1.0E+110", .num (100000000000000000000000000000000000000000000000000000000000000000000000000000000000000000000000000000000000000) 1), ("1.0E+111", .num (1000000000000000000000000000000000000000000000000000000000000000000000000000000000000000000000000000000000000000) 1),
   ("1.0E+112", .num (10000000000000000000000000000000000000000000000000000000000000000000000000000000000000000000000000000000000000000) 1), ("1.0E+113", .num (100000000000000000000000000000000000000000000000000000000000000000000000000000000000000000000000000000000000000000) 1), ("1.0E+114", .num (1000000000000000000000000000000000000000000000000000000000000000000000000000000000000000000000000000000000000000000) 1), ("1.0E+115", .num (10000000000000000000000000000000000000000000000000000000000000000000000000000000000000000000000000000000000000000000) 1),
   ("1.0E+116", .num (100000000000000000000000000000000000000000000000000000000000000000000000000000000000000000000000000000000000000000000) 1), ("1.0E+117", .num (1000000000000000000000000000000000000000000000000000000000000000000000000000000000000000000000000000000000000000000000) 1), ("1.0E+118", .num (10000000000000000000000000000000000000000000000000000000000000000000000000000000000000000000000000000000000000000000000) 1), ("1.0E+119", .num (100000000000000000000000000000000000000000000000000000000000000000000000000000000000000000000000000000000000000000000000) 1),
   ("1.0E+120", .num (1000000000000000000000000000000000000000000000000000000000000000000000000000000000000000000000000000000000000000000000000) 1), ("1.0E+121", .num (10000000000000000000000000000000000000000000000000000000000000000000000000000000000000000000000000000000000000000000000000) 1), ("1.0E+122", .num (100000000000000000000000000000000000000000000000000000000000000000000000000000000000000000000000000000000000000000000000000) 1), ("1.0E+123", .num (1000000000000000000000000000000000000000000000000000000000000000000000000000000000000000000000000000000000000000000000000000) 1),
   ("1.0E+124", .num (10000000000000000000000000000000000000000000000000000000000000000000000000000000000000000000000000000000000000000000000000000) 1), ("1.0E+125", .num (100000000000000000000000000000000000000000000000000000000000000000000000000000000000000000000000000000000000000000000000000000) 1), ("1.0E+126", .num (1000000000000000000000000000000000000000000000000000000000000000000000000000000000000000000000000000000000000000000000000000000) 1), ("1.0E+127", .num (10000000000000000000000000000000000000000000000000000000000000000000000000000000000000000000000000000000000000000000000000000000) 1),
   ("1.0E+128", .num (100000000000000000000000000000000000000000000000000000000000000000000000000000000000000000000000000000000000000000000000000000000) 1), ("1.0E+129", .num (1000000000000000000000000000000000000000000000000000000000000000000000000000000000000000000000000000000000000000000000000000000000) 1), ("1.0E+130", .num (10000000000000000000000000000000000000000000000000000000000000000000000000000000000000000000000000000000000000000000000000000000000) 1), ("1.0E+131", .num (100000000000000000000000000000000000000000000000000000000000000000000000000000000000000000000000000000000000000000000000000000000000) 1),
   ("1.0E+132", .num (1000000000000000000000000000000000000000000000000000000000000000000000000000000000000000000000000000000000000000000000000000000000000) 1), ("1.0E+133", .num (10000000000000000000000000000000000000000000000000000000000000000000000000000000000000000000000000000000000000000000000000000000000000) 1), ("1.0E+134", .num (100000000000000000000000000000000000000000000000000000000000000000000000000000000000000000000000000000000000000000000000000000000000000) 1), ("1.0E+135", .num (1000000000000000000000000000000000000000000000000000000000000000000000000000000000000000000000000000000000000000000000000000000000000000) 1),
   ("1.0E+136", .num (10000000000000000000000000000000000000000000000000000000000000000000000000000000000000000000000000000000000000000000000000000000000000000) 1), ("1.0E+137", .num (100000000000000000000000000000000000000000000000000000000000000000000000000000000000000000000000000000000000000000000000000000000000000000) 1), ("1.0E+138", .num (1000000000000000000000000000000000000000000000000000000000000000000000000000000000000000000000000000000000000000000000000000000000000000000) 1), ("1.0E+139", .num (10000000000000000000000000000000000000000000000000000000000000000000000000000000000000000000000000000000000000000000000000000000000000000000) 1),
   ("1.0E+140", .num (100000000000000000000000000000000000000000000000000000000000000000000000000000000000000000000000000000000000000000000000000000000000000000000) 1), ("1.0E+141", .num (1000000000000000000000000000000000000000000000000000000000000000000000000000000000000000000000000000000000000000000000000000000000000000000000) 1), ("1.0E+142", .num (10000000000000000000000000000000000000000000000000000000000000000000000000000000000000000000000000000000000000000000000000000000000000000000000) 1), ("1.0E+143", .num (100000000000000000000000000000000000000000000000000000000000000000000000000000000000000000000000000000000000000000000000000000000000000000000000) 1),
   ("1.0E+144", .num (1000000000000000000000000000000000000000000000000000000000000000000000000000000000000000000000000000000000000000000000000000000000000000000000000) 1), ("1.0E+145", .num (10000000000000000000000000000000000000000000000000000000000000000000000000000000000000000000000000000000000000000000000000000000000000000000000000) 1), ("1.0E+146", .num (100000000000000000000000000000000000000000000000000000000000000000000000000000000000000000000000000000000000000000000000000000000000000000000000000) 1), ("1.0E+147", .num (1000000000000000000000000000000000000000000000000000000000000000000000000000000000000000000000000000000000000000000000000000000000000000000000000000) 1),
   ("1.0E+148", .num (10000000000000000000000000000000000000000000000000000000000000000000000000000000000000000000000000000000000000000000000000000000000000000000000000000) 1), ("1.0E+149", .num (100000000000000000000000000000000000000000000000000000000000000000000000000000000000000000000000000000000000000000000000000000000000000000000000000000) 1), ("1.0E+150", .num (1000000000000000000000000000000000000000000000000000000000000000000000000000000000000000000000000000000000000000000000000000000000000000000000000000000) 1), ("1.0E+151", .num (10000000000000000000000000000000000000000000000000000000000000000000000000000000000000000000000000000000000000000000000000000000000000000000000000000000) 1),
   ("1.0E+152", .num (100000000000000000000000000000000000000000000000000000000000000000000000000000000000000000000000000000000000000000000000000000000000000000000000000000000) 1), ("1.0E+153", .num (1000000000000000000000000000000000000000000000000000000000000000000000000000000000000000000000000000000000000000000000000000000000000000000000000000000000) 1), ("1.0E+154", .num (10000000000000000000000000000000000000000000000000000000000000000000000000000000000000000000000000000000000000000000000000000000000000000000000000000000000) 1), ("1.0E+155", .num (100000000000000000000000000000000000000000000000000000000000000000000000000000000000000000000000000000000000000000000000000000000000000000000000000000000000) 1),
   ("1.0E+156", .num (1000000000000000000000000000000000000000000000000000000000000000000000000000000000000000000000000000000000000000000000000000000000000000000000000000000000000) 1), ("1.0E+157", .num (10000000000000000000000000000000000000000000000000000000000000000000000000000000000000000000000000000000000000000000000000000000000000000000000000000000000000) 1), ("1.0E+158", .num (100000000000000000000000000000000000000000000000000000000000000000000000000000000000000000000000000000000000000000000000000000000000000000000000000000000000000) 1), ("1.0E+159", .num (1000000000000000000000000000000000000000000000000000000000000000000000000000000000000000000000000000000000000000000000000000000000000000000000000000000000000000) 1),
   ("1.0E+160", .num (10000000000000000000000000000000000000000000000000000000000000000000000000000000000000000000000000000000000000000000000000000000000000000000000000000000000000000) 1), ("1.0E+161", .num (100000000000000000000000000000000000000000000000000000000000000000000000000000000000000000000000000000000000000000000000000000000000000000000000000000000000000000) 1), ("1.0E+162", .num (1000000000000000000000000000000000000000000000000000000000000000000000000000000000000000000000000000000000000000000000000000000000000000000000000000000000000000000) 1), ("1.0E+163", .num (10000000000000000000000000000000000000000000000000000000000000000000000000000000000000000000000000000000000000000000000000000000000000000000000000000000000000000000) 1),
   ("1.0E+164", .num (100000000000000000000000000000000000000000000000000000000000000000000000000000000000000000000000000000000000000000000000000000000000000000000000000000000000000000000) 1), ("1.0E+165", .num (1000000000000000000000000000000000000000000000000000000000000000000000000000000000000000000000000000000000000000000000000000000000000000000000000000000000000000000000) 1), ("1.0E+166", .num (10000000000000000000000000000000000000000000000000000000000000000000000000000000000000000000000000000000000000000000000000000000000000000000000000000000000000000000000) 1), ("1.0E+167", .num (100000000000000000000000000000000000000000000000000000000000000000000000000000000000000000000000000000000000000000000000000000000000000000000000000000000000000000000000) 1),
   ("1.0E+168", .num (1000000000000000000000000000000000000000000000000000000000000000000000000000000000000000000000000000000000000000000000000000000000000000000000000000000000000000000000000) 1), ("1.0E+169", .num (10000000000000000000000000000000000000000000000000000000000000000000000000000000000000000000000000000000000000000000000000000000000000000000000000000000000000000000000000) 1), ("1.0E+170", .num (100000000000000000000000000000000000000000000000000000000000000000000000000000000000000000000000000000000000000000000000000000000000000000000000000000000000000000000000000) 1), ("1.0E+171", .num (1000000000000000000000000000000000000000000000000000000000000000000000000000000000000000000000000000000000000000000000000000000000000000000000000000000000000000000000000000) 1),
   ("1.0E+172", .num (10000000000000000000000000000000000000000000000000000000000000000000000000000000000000000000000000000000000000000000000000000000000000000000000000000000000000000000000000000) 1), ("1.0E+173", .num (100000000000000000000000000000000000000000000000000000000000000000000000000000000000000000000000000000000000000000000000000000000000000000000000000000000000000000000000000000) 1), ("1.0E+174", .num (1000000000000000000000000000000000000000000000000000000000000000000000000000000000000000000000000000000000000000000000000000000000000000000000000000000000000000000000000000000) 1), ("1.0E+175", .num (10000000000000000000000000000000000000000000000000000000000000000000000000000000000000000000000000000000000000000000000000000000000000000000000000000000000000000000000000000000) 1),
   ("1.0E+176", .num (100000000000000000000000000000000000000000000000000000000000000000000000000000000000000000000000000000000000000000000000000000000000000000000000000000000000000000000000000000000) 1), ("1.0E+177", .num (1000000000000000000000000000000000000000000000000000000000000000000000000000000000000000000000000000000000000000000000000000000000000000000000000000000000000000000000000000000000) 1), ("1.0E+178", .num (10000000000000000000000000000000000000000000000000000000000000000000000000000000000000000000000000000000000000000000000000000000000000000000000000000000000000000000000000000000000) 1), ("1.0E+179", .num (100000000000000000000000000000000000000000000000000000000000000000000000000000000000000000000000000000000000000000000000000000000000000000000000000000000000000000000000000000000000) 1),
   ("1.0E+180", .num (1000000000000000000000000000000000000000000000000000000000000000000000000000000000000000000000000000000000000000000000000000000000000000000000000000000000000000000000000000000000000) 1), ("1.0E+181", .num (10000000000000000000000000000000000000000000000000000000000000000000000000000000000000000000000000000000000000000000000000000000000000000000000000000000000000000000000000000000000000) 1), ("1.0E+182", .num (100000000000000000000000000000000000000000000000000000000000000000000000000000000000000000000000000000000000000000000000000000000000000000000000000000000000000000000000000000000000000) 1), ("1.0E+183", .num (1000000000000000000000000000000000000000000000000000000000000000000000000000000000000000000000000000000000000000000000000000000000000000000000000000000000000000000000000000000000000000) 1),
   ("1.0E+184", .num (10000000000000000000000000000000000000000000000000000000000000000000000000000000000000000000000000000000000000000000000000000000000000000000000000000000000000000000000000000000000000000) 1), ("1.0E+185", .num (100000000000000000000000000000000000000000000000000000000000000000000000000000000000000000000000000000000000000000000000000000000000000000000000000000000000000000000000000000000000000000) 1), ("1.0E+186", .num (1000000000000000000000000000000000000000000000000000000000000000000000000000000000000000000000000000000000000000000000000000000000000000000000000000000000000000000000000000000000000000000) 1), ("1.0E+187", .num (10000000000000000000000000000000000000000000000000000000000000000000000000000000000000000000000000000000000000000000000000000000000000000000000000000000000000000000000000000000000000000000) 1),
   ("1.0E+188", .num (100000000000000000000000000000000000000000000000000000000000000000000000000000000000000000000000000000000000000000000000000000000000000000000000000000000000000000000000000000000000000000000) 1), ("1.0E+189", .num (1000000000000000000000000000000000000000000000000000000000000000000000000000000000000000000000000000000000000000000000000000000000000000000000000000000000000000000000000000000000000000000000) 1), ("1.0E+190", .num (10000000000000000000000000000000000000000000000000000000000000000000000000000000000000000000000000000000000000000000000000000000000000000000000000000000000000000000000000000000000000000000000) 1), ("1.0E+191", .num (100000000000000000000000000000000000000000000000000000000000000000000000000000000000000000000000000000000000000000000000000000000000000000000000000000000000000000000000000000000000000000000000) 1),
   ("1.0E+192", .num (1000000000000000000000000000000000000000000000000000000000000000000000000000000000000000000000000000000000000000000000000000000000000000000000000000000000000000000000000000000000000000000000000) 1), ("1.0E+193", .num (10000000000000000000000000000000000000000000000000000000000000000000000000000000000000000000000000000000000000000000000000000000000000000000000000000000000000000000000000000000000000000000000000) 1), ("1.0E+194", .num (100000000000000000000000000000000000000000000000000000000000000000000000000000000000000000000000000000000000000000000000000000000000000000000000000000000000000000000000000000000000000000000000000) 1), ("1.0E+195", .num (1000000000000000000000000000000000000000000000000000000000000000000000000000000000000000000000000000000000000000000000000000000000000000000000000000000000000000000000000000000000000000000000000000) 1),
   ("1.0E+196", .num (10000000000000000000000000000000000000000000000000000000000000000000000000000000000000000000000000000000000000000000000000000000000000000000000000000000000000000000000000000000000000000000000000000) 1), ("1.0E+197", .num (100000000000000000000000000000000000000000000000000000000000000000000000000000000000000000000000000000000000000000000000000000000000000000000000000000000000000000000000000000000000000000000000000000) 1), ("1.0E+198", .num (1000000000000000000000000000000000000000000000000000000000000000000000000000000000000000000000000000000000000000000000000000000000000000000000000000000000000000000000000000000000000000000000000000000) 1), ("1.0E+199", .num (10000000000000000000000000000000000000000000000000000000000000000000000000000000000000000000000000000000000000000000000000000000000000000000000000000000000000000000000000000000000000000000000000000000) 1),
   ("1.0E+200", .num (100000000000000000000000000000000000000000000000000000000000000000000000000000000000000000000000000000000000000000000000000000000000000000000000000000000000000000000000000000000000000000000000000000000) 1), ("1.0E+201", .num (1000000000000000000000000000000000000000000000000000000000000000000000000000000000000000000000000000000000000000000000000000000000000000000000000000000000000000000000000000000000000000000000000000000000) 1), ("1.0E+202", .num (10000000000000000000000000000000000000000000000000000000000000000000000000000000000000000000000000000000000000000000000000000000000000000000000000000000000000000000000000000000000000000000000000000000000) 1), ("1.0E+203", .num (100000000000000000000000000000000000000000000000000000000000000000000000000000000000000000000000000000000000000000000000000000000000000000000000000000000000000000000000000000000000000000000000000000000000) 1),
   ("1.0E+204", .num (1000000000000000000000000000000000000000000000000000000000000000000000000000000000000000000000000000000000000000000000000000000000000000000000000000000000000000000000000000000000000000000000000000000000000) 1), ("1.0E+205", .num (10000000000000000000000000000000000000000000000000000000000000000000000000000000000000000000000000000000000000000000000000000000000000000000000000000000000000000000000000000000000000000000000000000000000000) 1), ("1.0E+206", .num (100000000000000000000000000000000000000000000000000000000000000000000000000000000000000000000000000000000000000000000000000000000000000000000000000000000000000000000000000000000000000000000000000000000000000) 1), ("1.0E+207", .num (1000000000000000000000000000000000000000000000000000000000000000000000000000000000000000000000000000000000000000000000000000000000000000000000000000000000000000000000000000000000000000000000000000000000000000) 1),
   ("1.0E+208", .num (10000000000000000000000000000000000000000000000000000000000000000000000000000000000000000000000000000000000000000000000000000000000000000000000000000000000000000000000000000000000000000000000000000000000000000) 1), ("1.0E+209", .num (100000000000000000000000000000000000000000000000000000000000000000000000000000000000000000000000000000000000000000000000000000000000000000000000000000000000000000000000000000000000000000000000000000000000000000) 1), ("1.0E+210", .num (1000000000000000000000000000000000000000000000000000000000000000000000000000000000000000000000000000000000000000000000000000000000000000000000000000000000000000000000000000000000000000000000000000000000000000000) 1), ("1.0E+211", .num (10000000000000000000000000000000000000000000000000000000000000000000000000000000000000000000000000000000000000000000000000000000000000000000000000000000000000000000000000000000000000000000000000000000000000000000) 1),
   ("1.0E+212", .num (100000000000000000000000000000000000000000000000000000000000000000000000000000000000000000000000000000000000000000000000000000000000000000000000000000000000000000000000000000000000000000000000000000000000000000000) 1), ("1.0E+213", .num (1000000000000000000000000000000000000000000000000000000000000000000000000000000000000000000000000000000000000000000000000000000000000000000000000000000000000000000000000000000000000000000000000000000000000000000000) 1), ("1.0E+214", .num (10000000000000000000000000000000000000000000000000000000000000000000000000000000000000000000000000000000000000000000000000000000000000000000000000000000000000000000000000000000000000000000000000000000000000000000000) 1), ("1.0E+215", .num (100000000000000000000000000000000000000000000000000000000000000000000000000000000000000000000000000000000000000000000000000000000000000000000000000000000000000000000000000000000000000000000000000000000000000000000000) 1),
   ("1.0E+216", .num (1000000000000000000000000000000000000000000000000000000000000000000000000000000000000000000000000000000000000000000000000000000000000000000000000000000000000000000000000000000000000000000000000000000000000000000000000) 1), ("1.0E+217", .num (10000000000000000000000000000000000000000000000000000000000000000000000000000000000000000000000000000000000000000000000000000000000000000000000000000000000000000000000000000000000000000000000000000000000000000000000000) 1), ("1.0E+218", .num (100000000000000000000000000000000000000000000000000000000000000000000000000000000000000000000000000000000000000000000000000000000000000000000000000000000000000000000000000000000000000000000000000000000000000000000000000) 1), ("1.0E+219", .num (1000000000000000000000000000000000000000000000000000000000000000000000000000000000000000000000000000000000000000000000000000000000000000000000000000000000000000000000000000000000000000000000000000000000000000000000000000) 1),
   ("1.0E+220", .num (10000000000000000000000000000000000000000000000000000000000000000000000000000000000000000000000000000000000000000000000000000000000000000000000000000000000000000000000000000000000000000000000000000000000000000000000000000) 1), ("1.0E+221", .num (100000000000000000000000000000000000000000000000000000000000000000000000000000000000000000000000000000000000000000000000000000000000000000000000000000000000000000000000000000000000000000000000000000000000000000000000000000) 1), ("1.0E+222", .num (1000000000000000000000000000000000000000000000000000000000000000000000000000000000000000000000000000000000000000000000000000000000000000000000000000000000000000000000000000000000000000000000000000000000000000000000000000000) 1), ("1.0E+223", .num (10000000000000000000000000000000000000000000000000000000000000000000000000000000000000000000000000000000000000000000000000000000000000000000000000000000000000000000000000000000000000000000000000000000000000000000000000000000) 1),
   ("1.0E+224", .num (100000000000000000000000000000000000000000000000000000000000000000000000000000000000000000000000000000000000000000000000000000000000000000000000000000000000000000000000000000000000000000000000000000000000000000000000000000000) 1), ("1.0E+225", .num (1000000000000000000000000000000000000000000000000000000000000000000000000000000000000000000000000000000000000000000000000000000000000000000000000000000000000000000000000000000000000000000000000000000000000000000000000000000000) 1), ("1.0E+226", .num (10000000000000000000000000000000000000000000000000000000000000000000000000000000000000000000000000000000000000000000000000000000000000000000000000000000000000000000000000000000000000000000000000000000000000000000000000000000000) 1), ("1.0E+227", .num (100000000000000000000000000000000000000000000000000000000000000000000000000000000000000000000000000000000000000000000000000000000000000000000000000000000000000000000000000000000000000000000000000000000000000000000000000000000000) 1),
   ("1.0E+228", .num (1000000000000000000000000000000000000000000000000000000000000000000000000000000000000000000000000000000000000000000000000000000000000000000000000000000000000000000000000000000000000000000000000000000000000000000000000000000000000) 1), ("1.0E+229", .num (10000000000000000000000000000000000000000000000000000000000000000000000000000000000000000000000000000000000000000000000000000000000000000000000000000000000000000000000000000000000000000000000000000000000000000000000000000000000000) 1), ("1.0E+230", .num (100000000000000000000000000000000000000000000000000000000000000000000000000000000000000000000000000000000000000000000000000000000000000000000000000000000000000000000000000000000000000000000000000000000000000000000000000000000000000) 1), ("1.0E+231", .num (1000000000000000000000000000000000000000000000000000000000000000000000000000000000000000000000000000000000000000000000000000000000000000000000000000000000000000000000000000000000000000000000000000000000000000000000000000000000000000) 1),
   ("1.0E+232", .num (10000000000000000000000000000000000000000000000000000000000000000000000000000000000000000000000000000000000000000000000000000000000000000000000000000000000000000000000000000000000000000000000000000000000000000000000000000000000000000) 1), ("1.0E+233", .num (100000000000000000000000000000000000000000000000000000000000000000000000000000000000000000000000000000000000000000000000000000000000000000000000000000000000000000000000000000000000000000000000000000000000000000000000000000000000000000) 1), ("1.0E+234", .num (1000000000000000000000000000000000000000000000000000000000000000000000000000000000000000000000000000000000000000000000000000000000000000000000000000000000000000000000000000000000000000000000000000000000000000000000000000000000000000000) 1), ("1.0E+235", .num (10000000000000000000000000000000000000000000000000000000000000000000000000000000000000000000000000000000000000000000000000000000000000000000000000000000000000000000000000000000000000000000000000000000000000000000000000000000000000000000) 1),
   ("1.0E+236", .num (100000000000000000000000000000000000000000000000000000000000000000000000000000000000000000000000000000000000000000000000000000000000000000000000000000000000000000000000000000000000000000000000000000000000000000000000000000000000000000000) 1), ("1.0E+237", .num (1000000000000000000000000000000000000000000000000000000000000000000000000000000000000000000000000000000000000000000000000000000000000000000000000000000000000000000000000000000000000000000000000000000000000000000000000000000000000000000000) 1), ("1.0E+238", .num (10000000000000000000000000000000000000000000000000000000000000000000000000000000000000000000000000000000000000000000000000000000000000000000000000000000000000000000000000000000000000000000000000000000000000000000000000000000000000000000000) 1), ("1.0E+239", .num (100000000000000000000000000000000000000000000000000000000000000000000000000000000000000000000000000000000000000000000000000000000000000000000000000000000000000000000000000000000000000000000000000000000000000000000000000000000000000000000000) 1),
   ("1.0E+240", .num (1000000000000000000000000000000000000000000000000000000000000000000000000000000000000000000000000000000000000000000000000000000000000000000000000000000000000000000000000000000000000000000000000000000000000000000000000000000000000000000000000) 1), ("1.0E+241", .num (10000000000000000000000000000000000000000000000000000000000000000000000000000000000000000000000000000000000000000000000000000000000000000000000000000000000000000000000000000000000000000000000000000000000000000000000000000000000000000000000000) 1), ("1.0E+242", .num (100000000000000000000000000000000000000000000000000000000000000000000000000000000000000000000000000000000000000000000000000000000000000000000000000000000000000000000000000000000000000000000000000000000000000000000000000000000000000000000000000) 1), ("1.0E+243", .num (1000000000000000000000000000000000000000000000000000000000000000000000000000000000000000000000000000000000000000000000000000000000000000000000000000000000000000000000000000000000000000000000000000000000000000000000000000000000000000000000000000) 1),
   ("1.0E+244", .num (10000000000000000000000000000000000000000000000000000000000000000000000000000000000000000000000000000000000000000000000000000000000000000000000000000000000000000000000000000000000000000000000000000000000000000000000000000000000000000000000000000) 1), ("1.0E+245", .num (100000000000000000000000000000000000000000000000000000000000000000000000000000000000000000000000000000000000000000000000000000000000000000000000000000000000000000000000000000000000000000000000000000000000000000000000000000000000000000000000000000) 1), ("1.0E+246", .num (1000000000000000000000000000000000000000000000000000000000000000000000000000000000000000000000000000000000000000000000000000000000000000000000000000000000000000000000000000000000000000000000000000000000000000000000000000000000000000000000000000000) 1), ("1.0E+247", .num (10000000000000000000000000000000000000000000000000000000000000000000000000000000000000000000000000000000000000000000000000000000000000000000000000000000000000000000000000000000000000000000000000000000000000000000000000000000000000000000000000000000) 1),
   ("1.0E+248", .num (100000000000000000000000000000000000000000000000000000000000000000000000000000000000000000000000000000000000000000000000000000000000000000000000000000000000000000000000000000000000000000000000000000000000000000000000000000000000000000000000000000000) 1), ("1.0E+249", .num (1000000000000000000000000000000000000000000000000000000000000000000000000000000000000000000000000000000000000000000000000000000000000000000000000000000000000000000000000000000000000000000000000000000000000000000000000000000000000000000000000000000000) 1), ("1.0E+250", .num (10000000000000000000000000000000000000000000000000000000000000000000000000000000000000000000000000000000000000000000000000000000000000000000000000000000000000000000000000000000000000000000000000000000000000000000000000000000000000000000000000000000000) 1), ("1.0E+251", .num (100000000000000000000000000000000000000000000000000000000000000000000000000000000000000000000000000000000000000000000000000000000000000000000000000000000000000000000000000000000000000000000000000000000000000000000000000000000000000000000000000000000000) 1),
   ("1.0E+252", .num (1000000000000000000000000000000000000000000000000000000000000000000000000000000000000000000000000000000000000000000000000000000000000000000000000000000000000000000000000000000000000000000000000000000000000000000000000000000000000000000000000000000000000) 1), ("1.0E+253", .num (10000000000000000000000000000000000000000000000000000000000000000000000000000000000000000000000000000000000000000000000000000000000000000000000000000000000000000000000000000000000000000000000000000000000000000000000000000000000000000000000000000000000000) 1), ("1.0E+254", .num (100000000000000000000000000000000000000000000000000000000000000000000000000000000000000000000000000000000000000000000000000000000000000000000000000000000000000000000000000000000000000000000000000000000000000000000000000000000000000000000000000000000000000) 1), ("1.0E+255", .num (1000000000000000000000000000000000000000000000000000000000000000000000000000000000000000000000000000000000000000000000000000000000000000000000000000000000000000000000000000000000000000000000000000000000000000000000000000000000000000000000000000000000000000) 1),
   ("1.0E+256", .num (10000000000000000000000000000000000000000000000000000000000000000000000000000000000000000000000000000000000000000000000000000000000000000000000000000000000000000000000000000000000000000000000000000000000000000000000000000000000000000000000000000000000000000) 1), ("1.0E+257", .num (100000000000000000000000000000000000000000000000000000000000000000000000000000000000000000000000000000000000000000000000000000000000000000000000000000000000000000000000000000000000000000000000000000000000000000000000000000000000000000000000000000000000000000) 1), ("1.0E+258", .num (1000000000000000000000000000000000000000000000000000000000000000000000000000000000000000000000000000000000000000000000000000000000000000000000000000000000000000000000000000000000000000000000000000000000000000000000000000000000000000000000000000000000000000000) 1), ("1.0E+259", .num (10000000000000000000000000000000000000000000000000000000000000000000000000000000000000000000000000000000000000000000000000000000000000000000000000000000000000000000000000000000000000000000000000000000000000000000000000000000000000000000000000000000000000000000) 1),
   ("1.0E+260", .num (100000000000000000000000000000000000000000000000000000000000000000000000000000000000000000000000000000000000000000000000000000000000000000000000000000000000000000000000000000000000000000000000000000000000000000000000000000000000000000000000000000000000000000000) 1), ("1.0E+261", .num (1000000000000000000000000000000000000000000000000000000000000000000000000000000000000000000000000000000000000000000000000000000000000000000000000000000000000000000000000000000000000000000000000000000000000000000000000000000000000000000000000000000000000000000000) 1), ("1.0E+262", .num (10000000000000000000000000000000000000000000000000000000000000000000000000000000000000000000000000000000000000000000000000000000000000000000000000000000000000000000000000000000000000000000000000000000000000000000000000000000000000000000000000000000000000000000000) 1), ("1.0E+263", .num (100000000000000000000000000000000000000000000000000000000000000000000000000000000000000000000000000000000000000000000000000000000000000000000000000000000000000000000000000000000000000000000000000000000000000000000000000000000000000000000000000000000000000000000000) 1),
   ("1.0E+264", .num (1000000000000000000000000000000000000000000000000000000000000000000000000000000000000000000000000000000000000000000000000000000000000000000000000000000000000000000000000000000000000000000000000000000000000000000000000000000000000000000000000000000000000000000000000) 1), ("1.0E+265", .num (10000000000000000000000000000000000000000000000000000000000000000000000000000000000000000000000000000000000000000000000000000000000000000000000000000000000000000000000000000000000000000000000000000000000000000000000000000000000000000000000000000000000000000000000000) 1), ("1.0E+266", .num (100000000000000000000000000000000000000000000000000000000000000000000000000000000000000000000000000000000000000000000000000000000000000000000000000000000000000000000000000000000000000000000000000000000000000000000000000000000000000000000000000000000000000000000000000) 1), ("1.0E+267", .num (1000000000000000000000000000000000000000000000000000000000000000000000000000000000000000000000000000000000000000000000000000000000000000000000000000000000000000000000000000000000000000000000000000000000000000000000000000000000000000000000000000000000000000000000000000) 1),
   ("1.0E+268", .num (10000000000000000000000000000000000000000000000000000000000000000000000000000000000000000000000000000000000000000000000000000000000000000000000000000000000000000000000000000000000000000000000000000000000000000000000000000000000000000000000000000000000000000000000000000) 1), ("1.0E+269", .num (100000000000000000000000000000000000000000000000000000000000000000000000000000000000000000000000000000000000000000000000000000000000000000000000000000000000000000000000000000000000000000000000000000000000000000000000000000000000000000000000000000000000000000000000000000) 1), ("1.0E+270", .num (1000000000000000000000000000000000000000000000000000000000000000000000000000000000000000000000000000000000000000000000000000000000000000000000000000000000000000000000000000000000000000000000000000000000000000000000000000000000000000000000000000000000000000000000000000000) 1), ("1.0E+271", .num (10000000000000000000000000000000000000000000000000000000000000000000000000000000000000000000000000000000000000000000000000000000000000000000000000000000000000000000000000000000000000000000000000000000000000000000000000000000000000000000000000000000000000000000000000000000) 1),
   ("1.0E+272", .num (100000000000000000000000000000000000000000000000000000000000000000000000000000000000000000000000000000000000000000000000000000000000000000000000000000000000000000000000000000000000000000000000000000000000000000000000000000000000000000000000000000000000000000000000000000000) 1), ("1.0E+273", .num (1000000000000000000000000000000000000000000000000000000000000000000000000000000000000000000000000000000000000000000000000000000000000000000000000000000000000000000000000000000000000000000000000000000000000000000000000000000000000000000000000000000000000000000000000000000000) 1), ("1.0E+274", .num (10000000000000000000000000000000000000000000000000000000000000000000000000000000000000000000000000000000000000000000000000000000000000000000000000000000000000000000000000000000000000000000000000000000000000000000000000000000000000000000000000000000000000000000000000000000000) 1), ("1.0E+275", .num (100000000000000000000000000000000000000000000000000000000000000000000000000000000000000000000000000000000000000000000000000000000000000000000000000000000000000000000000000000000000000000000000000000000000000000000000000000000000000000000000000000000000000000000000000000000000) 1),
   ("1.0E+276", .num (1000000000000000000000000000000000000000000000000000000000000000000000000000000000000000000000000000000000000000000000000000000000000000000000000000000000000000000000000000000000000000000000000000000000000000000000000000000000000000000000000000000000000000000000000000000000000) 1), ("1.0E+277", .num (10000000000000000000000000000000000000000000000000000000000000000000000000000000000000000000000000000000000000000000000000000000000000000000000000000000000000000000000000000000000000000000000000000000000000000000000000000000000000000000000000000000000000000000000000000000000000) 1), ("1.0E+278", .num (100000000000000000000000000000000000000000000000000000000000000000000000000000000000000000000000000000000000000000000000000000000000000000000000000000000000000000000000000000000000000000000000000000000000000000000000000000000000000000000000000000000000000000000000000000000000000) 1), ("1.0E+279", .num (1000000000000000000000000000000000000000000000000000000000000000000000000000000000000000000000000000000000000000000000000000000000000000000000000000000000000000000000000000000000000000000000000000000000000000000000000000000000000000000000000000000000000000000000000000000000000000) 1),
   ("1.0E+280", .num (10000000000000000000000000000000000000000000000000000000000000000000000000000000000000000000000000000000000000000000000000000000000000000000000000000000000000000000000000000000000000000000000000000000000000000000000000000000000000000000000000000000000000000000000000000000000000000) 1), ("1.0E+281", .num (100000000000000000000000000000000000000000000000000000000000000000000000000000000000000000000000000000000000000000000000000000000000000000000000000000000000000000000000000000000000000000000000000000000000000000000000000000000000000000000000000000000000000000000000000000000000000000) 1), ("1.0E+282", .num (1000000000000000000000000000000000000000000000000000000000000000000000000000000000000000000000000000000000000000000000000000000000000000000000000000000000000000000000000000000000000000000000000000000000000000000000000000000000000000000000000000000000000000000000000000000000000000000) 1), ("1.0E+283", .num (10000000000000000000000000000000000000000000000000000000000000000000000000000000000000000000000000000000000000000000000000000000000000000000000000000000000000000000000000000000000000000000000000000000000000000000000000000000000000000000000000000000000000000000000000000000000000000000) 1),
   ("1.0E+284", .num (100000000000000000000000000000000000000000000000000000000000000000000000000000000000000000000000000000000000000000000000000000000000000000000000000000000000000000000000000000000000000000000000000000000000000000000000000000000000000000000000000000000000000000000000000000000000000000000) 1), ("1.0E+285", .num (1000000000000000000000000000000000000000000000000000000000000000000000000000000000000000000000000000000000000000000000000000000000000000000000000000000000000000000000000000000000000000000000000000000000000000000000000000000000000000000000000000000000000000000000000000000000000000000000) 1), ("1.0E+286", .num (10000000000000000000000000000000000000000000000000000000000000000000000000000000000000000000000000000000000000000000000000000000000000000000000000000000000000000000000000000000000000000000000000000000000000000000000000000000000000000000000000000000000000000000000000000000000000000000000) 1), ("1.0E+287", .num (100000000000000000000000000000000000000000000000000000000000000000000000000000000000000000000000000000000000000000000000000000000000000000000000000000000000000000000000000000000000000000000000000000000000000000000000000000000000000000000000000000000000000000000000000000000000000000000000) 1),
   ("1.0E+288", .num (1000000000000000000000000000000000000000000000000000000000000000000000000000000000000000000000000000000000000000000000000000000000000000000000000000000000000000000000000000000000000000000000000000000000000000000000000000000000000000000000000000000000000000000000000000000000000000000000000) 1), ("1.0E+289", .num (10000000000000000000000000000000000000000000000000000000000000000000000000000000000000000000000000000000000000000000000000000000000000000000000000000000000000000000000000000000000000000000000000000000000000000000000000000000000000000000000000000000000000000000000000000000000000000000000000) 1), ("1.0E+290", .num (100000000000000000000000000000000000000000000000000000000000000000000000000000000000000000000000000000000000000000000000000000000000000000000000000000000000000000000000000000000000000000000000000000000000000000000000000000000000000000000000000000000000000000000000000000000000000000000000000) 1), ("1.0E+291", .num (1000000000000000000000000000000000000000000000000000000000000000000000000000000000000000000000000000000000000000000000000000000000000000000000000000000000000000000000000000000000000000000000000000000000000000000000000000000000000000000000000000000000000000000000000000000000000000000000000000) 1),
   ("1.0E+292", .num (10000000000000000000000000000000000000000000000000000000000000000000000000000000000000000000000000000000000000000000000000000000000000000000000000000000000000000000000000000000000000000000000000000000000000000000000000000000000000000000000000000000000000000000000000000000000000000000000000000) 1), ("1.0E+293", .num (100000000000000000000000000000000000000000000000000000000000000000000000000000000000000000000000000000000000000000000000000000000000000000000000000000000000000000000000000000000000000000000000000000000000000000000000000000000000000000000000000000000000000000000000000000000000000000000000000000) 1), ("1.0E+294", .num (1000000000000000000000000000000000000000000000000000000000000000000000000000000000000000000000000000000000000000000000000000000000000000000000000000000000000000000000000000000000000000000000000000000000000000000000000000000000000000000000000000000000000000000000000000000000000000000000000000000) 1), ("1.0E+295", .num (10000000000000000000000000000000000000000000000000000000000000000000000000000000000000000000000000000000000000000000000000000000000000000000000000000000000000000000000000000000000000000000000000000000000000000000000000000000000000000000000000000000000000000000000000000000000000000000000000000000) 1),
   ("1.0E+296", .num (100000000000000000000000000000000000000000000000000000000000000000000000000000000000000000000000000000000000000000000000000000000000000000000000000000000000000000000000000000000000000000000000000000000000000000000000000000000000000000000000000000000000000000000000000000000000000000000000000000000) 1), ("1.0E+297", .num (1000000000000000000000000000000000000000000000000000000000000000000000000000000000000000000000000000000000000000000000000000000000000000000000000000000000000000000000000000000000000000000000000000000000000000000000000000000000000000000000000000000000000000000000000000000000000000000000000000000000) 1), ("1.0E+298", .num (10000000000000000000000000000000000000000000000000000000000000000000000000000000000000000000000000000000000000000000000000000000000000000000000000000000000000000000000000000000000000000000000000000000000000000000000000000000000000000000000000000000000000000000000000000000000000000000000000000000000) 1), ("1.0E+299", .num (100000000000000000000000000000000000000000000000000000000000000000000000000000000000000000000000000000000000000000000000000000000000000000000000000000000000000000000000000000000000000000000000000000000000000000000000000000000000000000000000000000000000000000000000000000000000000000000000000000000000) 1),
   ("1.0E+300", .num (1000000000000000000000000000000000000000000000000000000000000000000000000000000000000000000000000000000000000000000000000000000000000000000000000000000000000000000000000000000000000000000000000000000000000000000000000000000000000000000000000000000000000000000000000000000000000000000000000000000000000) 1), ("1.0E+301", .num (10000000000000000000000000000000000000000000000000000000000000000000000000000000000000000000000000000000000000000000000000000000000000000000000000000000000000000000000000000000000000000000000000000000000000000000000000000000000000000000000000000000000000000000000000000000000000000000000000000000000000) 1), ("1.0E+302", .num (100000000000000000000000000000000000000000000000000000000000000000000000000000000000000000000000000000000000000000000000000000000000000000000000000000000000000000000000000000000000000000000000000000000000000000000000000000000000000000000000000000000000000000000000000000000000000000000000000000000000000) 1), ("1.0E+303", .num (1000000000000000000000000000000000000000000000000000000000000000000000000000000000000000000000000000000000000000000000000000000000000000000000000000000000000000000000000000000000000000000000000000000000000000000000000000000000000000000000000000000000000000000000000000000000000000000000000000000000000000) 1),
   ("1.0E+304", .num (10000000000000000000000000000000000000000000000000000000000000000000000000000000000000000000000000000000000000000000000000000000000000000000000000000000000000000000000000000000000000000000000000000000000000000000000000000000000000000000000000000000000000000000000000000000000000000000000000000000000000000) 1), ("1.0E+305", .num (100000000000000000000000000000000000000000000000000000000000000000000000000000000000000000000000000000000000000000000000000000000000000000000000000000000000000000000000000000000000000000000000000000000000000000000000000000000000000000000000000000000000000000000000000000000000000000000000000000000000000000) 1), ("1.0E+306", .num (1000000000000000000000000000000000000000000000000000000000000000000000000000000000000000000000000000000000000000000000000000000000000000000000000000000000000000000000000000000000000000000000000000000000000000000000000000000000000000000000000000000000000000000000000000000000000000000000000000000000000000000) 1), ("1.0E+307", .num (10000000000000000000000000000000000000000000000000000000000000000000000000000000000000000000000000000000000000000000000000000000000000000000000000000000000000000000000000000000000000000000000000000000000000000000000000000000000000000000000000000000000000000000000000000000000000000000000000000000000000000000) 1),
   ("1.0E+308", .num (100000000000000000000000000000000000000000000000000000000000000000000000000000000000000000000000000000000000000000000000000000000000000000000000000000000000000000000000000000000000000000000000000000000000000000000000000000000000000000000000000000000000000000000000000000000000000000000000000000000000000000000) 1)]

/-- `test` of `test_replace_pattern`. -/
def patterns : List (String × String) :=
  [("a", "x"), ("ab", "xy"), ("abc", "xyz"), ("a", "xy"), ("b", "xy"),
   ("c", "xy"), ("ab", "x"), ("bc", "x"), ("ca", "x"), ("ab", "xyz"),
   ("bc", "xyz"), ("ca", "xyz"), ("abc", "x"), ("bca", "x"), ("cab", "x"),
   ("abca", "x"), ("bcab", "x"), ("cabc", "x"), ("abc", ""), ("ijk", "mno")]

/-- `base` of `test_replace_pattern`. -/
def bases : List String :=
  ["", "abcabcabcabcabc",
   "yyabcabcabcabcabc", "yyabcabcabcabcabckkk",
   "yyabcabcabcabcabckkk", "yabctabcabctabcabtckk",
   "xyzxyzxyzxyzxyzxyzxyzxyzabc"]

/-- The assertions of `test_n_choose_k`. -/
def chosen : List (Nat × Nat × Nat) :=
  [(10, 0, 1), (10, 1, 10), (10, 2, 45), (10, 3, 120), (10, 4, 210), (10, 5, 252),
   (10, 6, 210), (10, 7, 120), (10, 8, 45), (10, 9, 10), (10, 10, 1), (11, 0, 1),
   (11, 1, 11), (11, 2, 55), (11, 3, 165), (11, 4, 330), (11, 5, 462), (11, 6, 462),
   (11, 7, 330), (11, 8, 165), (11, 9, 55), (11, 10, 11), (11, 11, 1), (100, 0, 1),
   (100, 1, 100), (100, 2, 4950), (100, 3, 161700), (100, 4, 3921225), (100, 5, 75287520), (100, 6, 1192052400),
   (100, 7, 16007560800), (100, 8, 186087894300), (100, 9, 1902231808400), (100, 10, 17310309456440), (100, 100, 1), (100, 99, 100),
   (100, 98, 4950), (100, 97, 161700), (100, 96, 3921225), (100, 95, 75287520), (100, 94, 1192052400), (100, 93, 16007560800),
   (100, 92, 186087894300), (100, 91, 1902231808400), (100, 90, 17310309456440), (500, 0, 1), (500, 1, 500), (500, 2, 124750),
   (500, 3, 20708500), (500, 4, 2573031125), (500, 5, 255244687600), (500, 6, 21057686727000), (500, 7, 1486071034734000), (500, 8, 91579127515482750),
   (500, 9, 5006325637513057000), (500, 500, 1), (500, 499, 500), (500, 498, 124750), (500, 497, 20708500), (500, 496, 2573031125),
   (500, 495, 255244687600), (500, 494, 21057686727000), (500, 493, 1486071034734000), (500, 492, 91579127515482750), (500, 491, 5006325637513057000)]

/-- `multi_predicate` of the test (311-312). -/
def multi (c : Byte) : Bool := charPred (chars "|?-,;_") c

-- the four tables, with split and with the tokenizer (116-378)
example : (table1.all fun e => testTokenizerSplit (· == 124) (chars e.1) (chars e.2) false == ok true && testTokenizerItr (· == 124) (chars e.1) (chars e.2) false == ok true) = true := by decide +kernel
example : (table2.all fun e => testTokenizerSplit multi (chars e.1) (chars e.2) false == ok true && testTokenizerItr multi (chars e.1) (chars e.2) false == ok true) = true := by decide +kernel
example : (table3.all fun e => testTokenizerSplit (· == 124) (chars e.1) (chars e.2) true == ok true && testTokenizerItr (· == 124) (chars e.1) (chars e.2) true == ok true) = true := by decide +kernel
example : (table4.all fun e => testTokenizerSplit multi (chars e.1) (chars e.2) true == ok true && testTokenizerItr multi (chars e.1) (chars e.2) true == ok true) = true := by decide +kernel

-- the options (380-544)
example : (tokenizerTokens { first := true, compress := true } (charPred (chars "abcijkxyz")) (chars "1xyz23ijk456abc") >>= fun r =>
    ok (r.map (textOf (chars "1xyz23ijk456abc")))) = ok [chars "1x", chars "23i", chars "456a", []] := by decide +kernel
example : (tokenizerTokens { all := true } (charPred (chars "abcijkxyz")) (chars "1xyz23ijk456abc") >>= fun r =>
    ok (r.map (textOf (chars "1xyz23ijk456abc")))) = ok [chars "1xyz", chars "23ijk", chars "456abc", []] := by decide +kernel
example : (split { first := true, compress := true } (charPred (chars "abcijkxyz")) (chars "1xyz23ijk456abc") >>= fun r =>
    ok (r.1.map (textOf (chars "1xyz23ijk456abc")))) = ok [chars "1x", chars "23i", chars "456a", []] := by decide +kernel
example : (split { all := true } (charPred (chars "abcijkxyz")) (chars "1xyz23ijk456abc") >>= fun r =>
    ok (r.1.map (textOf (chars "1xyz23ijk456abc")))) = ok [chars "1xyz", chars "23ijk", chars "456abc", []] := by decide +kernel

-- split_n (548-568)
example : testSplitN (chars " ,|" ++ [9] ++ chars "_:!") (chars "1234567890abcdefghijklmnopqrstuvwxyz") = ok true := by decide +kernel

-- fast conversions (689-723)
example : fastTable (fast.map fun e => (chars e.1, e.2)) = ok true := by decide +kernel

-- integers (1440-1640)
example : (ints.all fun e => parseSigned int (chars e.1) 9999999 == ok (true, e.2)) = true := by decide +kernel
example : (badInts.all fun s => refused (parseSigned int (chars s) 0)) = true := by decide +kernel
example : (badInts.all fun s => refused (parseUnsigned uint (chars s) 0)) = true := by decide +kernel
example : (badInts.all fun s => refused (parseSigned short (chars s) 0)) = true := by decide +kernel
example : (badInts.all fun s => refused (parseUnsigned ushort (chars s) 0)) = true := by decide +kernel

-- reals (728-1325), in exact arithmetic
example : (doubles.all fun e => meets (Real.realParse Real.exact Real.doubleMin (chars e.1)) e.2) = true := by decide +kernel
example : (badDoubles.all fun s => decide (Real.realParse Real.exact Real.doubleMin (chars s) = ok none)) = true := by decide +kernel
example : (tens.zipIdx.all fun e => meets (Real.realParse Real.exact Real.doubleMin (chars e.1)) (.num (10 ^ (e.2 + 1)) 1)) = true := by decide +kernel
example : (fracs.all fun e => meets (Real.realParse Real.exact Real.doubleMin (chars e.1)) e.2) = true := by decide +kernel

/-- Does `p` occur in `s`? -/
def occurs (p s : List Byte) : Bool := s.tails.any fun t => p.isPrefixOf t

-- replace_pattern (2472-2532): the pattern does not occur in the result
example : (patterns.all fun e => bases.all fun b =>
    match Strings.replacePattern (chars b) (chars e.1) (chars e.2) [] with
    | ok r => !occurs (chars e.1) r
    | _ => false) = true := by decide +kernel

-- n_choose_k (2534-2604)
example : (chosen.all fun e => decide (Nat.choose e.1 e.2.1 = e.2.2)) = true := by decide +kernel

end Strtk.Conformance
