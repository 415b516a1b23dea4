/-! # The prefix trie (strtk.hpp 19652-19905)

Nodes are owned by their parents, so a pointer graph of nodes is a tree of values. -/

namespace Strtk.Trie

variable {κ ν : Type}

/-- `node` (19661-19755): `key_value_`, `value_` if `value_holder_` is set, `node_list_`. -/
inductive Node (κ ν : Type) where
  | mk (key : κ) (value : Option ν) (children : List (Node κ ν))

/-- `key()` (19741-19744). -/
def Node.key : Node κ ν → κ
  | mk k _ _ => k
/-- `value()` if `value_holder()` (19731-19739). -/
def Node.value : Node κ ν → Option ν
  | mk _ v _ => v
/-- `node_list_` (19754). -/
def Node.children : Node κ ν → List (Node κ ν)
  | mk _ _ c => c

/-- `node(const key_value_t&)` (19675-19678). -/
def Node.new (k : κ) : Node κ ν := .mk k none []

/-- `get_node` (19701-19718): the first child with the key. -/
def getNode [DecidableEq κ] (k : κ) : List (Node κ ν) → Option (Node κ ν)
  | [] => none
  | n :: l => if k = n.key then some n else getNode k l

/-- `get_node`, and `add_node` of a new node if there is none (19788-19791), then whatever the loop does to that node (`f`). -/
def onChild [DecidableEq κ] (k : κ) (f : Node κ ν → Node κ ν) : List (Node κ ν) → List (Node κ ν)
  | [] => [f (.new k)]
  | n :: l => if k = n.key then f n :: l else n :: onChild k f l

/-- `assign_value` (19720-19724). -/
def assign (v : ν) : Node κ ν → Node κ ν
  | .mk k _ c => .mk k (some v) c

/-- The loop of `insert` from node `n` on (19784-19798).  After the last character `parent` is the node in front of the last one; its value is set. -/
def insertFrom [DecidableEq κ] : List κ → ν → Node κ ν → Node κ ν
  | [], _, n => n
  | [k], v, .mk key val c => assign v (.mk key val (onChild k id c))
  | k :: ks, v, .mk key val c => .mk key val (onChild k (insertFrom ks v) c)

/-- `insert` (19771-19799); the state is `head_`. -/
def insert [DecidableEq κ] (head : Option (Node κ ν)) (key : List κ) (v : ν) : Option (Node κ ν) :=
  match key with
  | [] => head
  | k :: ks => some (insertFrom (k :: ks) v (head.getD (.new k)))

/-- The loop of `find` from node `n` on (19813-19823): `parent` and `n` after it. -/
def walk [DecidableEq κ] : List κ → Node κ ν → Node κ ν → Option (Node κ ν × Node κ ν)
  | [], parent, n => some (parent, n)
  | k :: ks, _, n =>
    match getNode k n.children with
    | none => none
    | some next => walk ks n next

/-- `find` (19802-19828): the value stored through the reference, `none` for `false`. -/
def find [DecidableEq κ] (head : Option (Node κ ν)) (key : List κ) : Option ν :=
  match head, key with
  | none, _ => none
  | some _, [] => none
  | some h, k :: ks =>
    match walk (k :: ks) h h with
    | none => none
    | some (parent, _) => parent.value

/-- The loop of `find_prefix` (19839-19846). -/
def prefixFrom [DecidableEq κ] : List κ → Node κ ν → Bool
  | [], _ => true
  | k :: ks, n =>
    match getNode k n.children with
    | none => false
    | some next => prefixFrom ks next

/-- `find_prefix` (19831-19847). -/
def findPrefix [DecidableEq κ] (head : Option (Node κ ν)) (key : List κ) : Bool :=
  match head, key with
  | none, _ => false
  | some _, [] => false
  | some h, k :: ks => prefixFrom (k :: ks) h

/-- A history of insertions into an empty trie (19766-19768). -/
def build [DecidableEq κ] (history : List (List κ × ν)) : Option (Node κ ν) :=
  history.foldl (fun head kv => insert head kv.1 kv.2) none

end Strtk.Trie
