import Verif.Split.Model
import Verif.Split.Spec
import Verif.Codec.Model

/-!
# Model of the delimiter predicates and the parse family (strtk.hpp 1015-1145, 8023-9660)

A token is used through the text it denotes (`textOf`).  A target type is represented by its converter `string_to_type_converter`:
from the text and the old value of the target to the returned flag and the new value.  `V` is the sum of the types of all targets.
-/

namespace Strtk.Parse
open Outcome Mem Strtk.Codec Strtk.Split

/-- `multiple_char_delimiter_predicate::setup_delimiter_table` (1134-1142): loop 1138-1141. -/
def setupLoop : List Byte → List Bool → Outcome (List Bool)
  | [], table => ok table
  | c :: t, table => do
    let table ← store table c.toNat true
    setupLoop t table

/-- `multiple_char_delimiter_predicate` (1105-1145): the table for the delimiters. -/
def delimiterTable (delims : List Byte) : Outcome (List Bool) := setupLoop delims (List.replicate 256 false)

/-- `multiple_char_delimiter_predicate(delims)(c)` (1120-1128). -/
def multipleCharPred (delims : List Byte) (c : Byte) : Outcome Bool := do
  let table ← delimiterTable delims
  deref table c.toNat

/-- `single_delimiter_predicate(d)(c)` (1015-1035). -/
def singlePred {α : Type} [DecidableEq α] (d c : α) : Bool := d == c

/-- `multiple_delimiter_predicate` (1037-1103): `std::find`. -/
def multiplePred {α : Type} [DecidableEq α] : List α → α → Bool
  | [], _ => false
  | d :: t, c => if d = c then true else multiplePred t c

/-- The choice between the two predicates made from a delimiter string (3666-3680, 8634-8643, 9511-9522, ...).  A predicate evaluation that
went wrong would show up as `false`; `C79_multiple_char_predicate` proves that none does. -/
def delimPred (delims : List Byte) (c : Byte) : Bool :=
  match delims with
  | [d] => singlePred d c
  | _ => match multipleCharPred delims c with
    | ok b => b
    | _ => false

/-- A target's converter. -/
abbrev Conv (V : Type) := List Byte → V → Outcome (Bool × V)

/-- The `strtk_cmpstmt` sequence of `parse` (8053-8073): convert the tokens in order, stop at the first failure. -/
def convertAll {V : Type} : List (Conv V) → List V → List (List Byte) → Outcome (Bool × List V)
  | [], ts, _ => ok (true, ts)
  | _ :: _, [], _ => ub
  | _ :: _, _ :: _, [] => ub
  | f :: fs, t :: ts, w :: ws => do
    let (good, v) ← f w t
    if good then do
      let (good, vs) ← convertAll fs ts ws
      ok (good, v :: vs)
    else ok (false, v :: ts)

/-- `parse(begin,end,delimiters,t1,...,tn)` (8023-8619; the sixteen overloads have the same body). -/
def parse {V : Type} (delims : List Byte) (fs : List (Conv V)) (ts : List V) (s : List Byte) : Outcome (Bool × List V) := do
  let (toks, n) ← splitN { compress := true } (delimPred delims) s fs.length
  if fs.length > n then ok (false, ts)
  else convertAll fs ts (toks.map (textOf s))

/-- `range_to_type_back_inserter_iterator::operator=` and its siblings (2638-2647, 2729-2737, 2795-2818): a token that converts is pushed;
`push` is `push_back`, `insert` or `push`. -/
def insertAll {V C : Type} (conv : List Byte → Outcome (Bool × V)) (push : C → V → C) : C → List (List Byte) → Outcome C
  | c, [] => ok c
  | c, w :: ws => do
    let (good, v) ← conv w
    if good then insertAll conv push (push c v) ws else insertAll conv push c ws

/-- `parse(begin,end,delimiters,container,split_option)` through `parse_impl` (8623-8833).  The tokens are converted when `split` writes
them; here they are converted after `split` returned, which makes no difference since conversions do not affect the text. -/
def parseContainer {V C : Type} (opt : Opt) (delims : List Byte) (conv : List Byte → Outcome (Bool × V)) (push : C → V → C) (c : C)
    (s : List Byte) : Outcome (Nat × C) := do
  let (toks, n) ← split opt (delimPred delims) s
  let c ← insertAll conv push c (toks.map (textOf s))
  ok (n, c)

/-- `parse_n(begin,end,delimiters,n,container,split_option)` (9495-9689): returns the growth of the container (modulo 2^64 in the code; a
container never shrinks here). -/
def parseN {V C : Type} (opt : Opt) (delims : List Byte) (n : Nat) (conv : List Byte → Outcome (Bool × V)) (push : C → V → C)
    (size : C → Nat) (c : C) (s : List Byte) : Outcome (Nat × C) := do
  let original := size c
  let (toks, _) ← splitN opt (delimPred delims) s n
  let c ← insertAll conv push c (toks.map (textOf s))
  ok (size c - original, c)

/-- `container_adder::operator()(begin,end)` (9030-9042). -/
def addAll {V C : Type} (conv : List Byte → Outcome (Bool × V)) (push : C → V → C) : C → List (List Byte) → Outcome (Bool × C)
  | c, [] => ok (true, c)
  | c, w :: ws => do
    let (good, v) ← conv w
    if good then addAll conv push (push c v) ws else ok (false, c)

/-- `parse(begin,end,delimiters,t1,...,tk,container)` (9058-9493): needs at least `k + 1` tokens; the container takes the tokens after the
first `k`. -/
def parseTail {V W C : Type} (delims : List Byte) (fs : List (Conv V)) (ts : List V) (conv : List Byte → Outcome (Bool × W)) (push : C → W → C)
    (c : C) (s : List Byte) : Outcome (Bool × List V × C) := do
  let (toks, n) ← split { compress := true } (delimPred delims) s
  if n < fs.length + 1 then ok (false, ts, c) else do
  let (good, vs) ← convertAll fs ts (toks.map (textOf s))
  if good then do
    let (good, c) ← addAll conv push c ((toks.map (textOf s)).drop fs.length)
    ok (good, vs, c)
  else ok (false, vs, c)

/-- `construct(output,delimiter,t1,...,tn)` (10926-11099; same body for every n >= 2): the texts are `type_to_string` of the values. -/
def construct (output delimiter : List Byte) : List (List Byte) → List Byte
  | [] => output
  | [w] => output ++ w
  | w :: ws => construct (output ++ w ++ delimiter) delimiter ws

end Strtk.Parse
