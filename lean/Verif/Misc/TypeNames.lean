import Verif.Number.Props

/-!
# Names of types (strtk.hpp 18029-18076, 18099-18145)

`type_name(x)` gives the name of the type of `x`.  Which of the overloads is called depends on the type only: those for containers are declared
behind the one for pairs, so that one does not see them (they are not found by their arguments either, whose namespace is `std`).
-/

namespace Strtk.TypeNames
open Outcome
open Number (Byte decText unsignedToString isDigit)

/-- The types that are registered (18039-18052). -/
inductive Prim where
  | schar | uchar | short | int | long | llong | ushort | uint | ulong | ullong | double | float | ldouble | string
  deriving DecidableEq, Repr

/-- The containers with a name (18141-18145). -/
inductive Cont where
  | vector | deque | list | set | multiset
  deriving DecidableEq, Repr

/-- Types: registered ones, others (`char`, `bool`, classes; `n` tells them apart), pairs, containers and arrays. -/
inductive Ty where
  | prim (p : Prim)
  | other (n : Nat)
  | pair (a b : Ty)
  | cont (k : Cont) (t : Ty)
  | array (t : Ty) (n : Nat)
  deriving DecidableEq, Repr

/-- The bytes of a text. -/
def text (s : String) : List Byte := s.toList.map fun c => BitVec.ofNat 8 c.toNat

/-- `details::type_name<T>()` for the registered types (18036-18052); the preprocessor removes the spaces. -/
def Prim.name : Prim → List Byte
  | .schar => text "signed char"
  | .uchar => text "unsigned char"
  | .short => text "short"
  | .int => text "int"
  | .long => text "long"
  | .llong => text "long long"
  | .ushort => text "unsigned short"
  | .uint => text "unsigned int"
  | .ulong => text "unsigned long"
  | .ullong => text "unsigned long long int"
  | .double => text "double"
  | .float => text "float"
  | .ldouble => text "long double"
  | .string => text "std::string"

/-- The names of the containers (18141-18145). -/
def Cont.name : Cont → List Byte
  | .vector => text "std::vector"
  | .deque => text "std::deque"
  | .list => text "std::list"
  | .set => text "std::set"
  | .multiset => text "std::multiset"

/-- `details::type_name<T>()` (18029-18052). -/
def detailsName : Ty → List Byte
  | .prim p => p.name
  | _ => text "Unknown"

/-- `type_name` of an array (18106-18112); `type_to_string` of the `std::size_t` is that of C28. -/
def arrayName (t : Ty) (n : Nat) : Outcome (List Byte) := do
  let d ← unsignedToString n
  ok (detailsName t ++ text "[" ++ d ++ text "]")

/-- `type_name` as called by the overload for pairs (18114-18123): the overloads for anything (18099-18104), arrays and pairs. -/
def nameInPair : Ty → Outcome (List Byte)
  | .pair a b => do
    let x ← nameInPair a
    let y ← nameInPair b
    ok (text "std::pair<" ++ x ++ text "," ++ y ++ text ">")
  | .array t n => arrayName t n
  | t => ok (detailsName t)

/-- `type_name` (18099-18145). -/
def typeName : Ty → Outcome (List Byte)
  | .cont k t => ok (k.name ++ text "<" ++ detailsName t ++ text ">")
  | t => nameInPair t

/-! ## Specification -/

/-- The types a name can be relied on for: registered types, and pairs, containers and arrays of them; the members of a pair may be pairs and arrays again. -/
def Member : Ty → Prop
  | .prim _ => True
  | .pair a b => Member a ∧ Member b
  | .array (.prim _) n => n < 2 ^ 64
  | _ => False

@[inherit_doc Member] def Named : Ty → Prop
  | .cont _ (.prim _) => True
  | t => Member t

/-- The type as far as its name tells: what cannot be told apart is `other 0`. -/
def element : Ty → Ty
  | .prim p => .prim p
  | _ => .other 0

@[inherit_doc element] def member : Ty → Ty
  | .pair a b => .pair (member a) (member b)
  | .array t n => .array (element t) n
  | t => element t

@[inherit_doc element] def told : Ty → Ty
  | .cont k t => .cont k (element t)
  | t => member t

/-- Arrays have less than `2^64` elements. -/
def Possible : Ty → Prop
  | .pair a b => Possible a ∧ Possible b
  | .cont _ t => Possible t
  | .array t n => Possible t ∧ n < 2 ^ 64
  | _ => True

/-! ## Names are read in one way -/

/-- A character that ends the name of an element: `<`, `>`, `[`, or `,`. -/
def stop (c : Byte) : Bool := c == 60 || c == 62 || c == 91 || c == 44

/-- Nothing, or a stop other than `<` and `[`. -/
def Ending (u : List Byte) : Prop := u = [] ∨ ∃ v, u = 62 :: v ∨ u = 44 :: v

theorem takeWhile_name {a u : List Byte} (h : a.all (fun c => !stop c) = true) (hu : u = [] ∨ ∃ c v, u = c :: v ∧ stop c = true) :
    (a ++ u).takeWhile (fun c => !stop c) = a := by
  rw [List.all_eq_true] at h
  rw [List.takeWhile_append_of_pos (by simpa using h)]
  rcases hu with rfl | ⟨c, v, rfl, hc⟩
  · simp
  · simp [hc]

theorem split_name {a b u v : List Byte} (ha : a.all (fun c => !stop c) = true) (hb : b.all (fun c => !stop c) = true)
    (hu : u = [] ∨ ∃ c w, u = c :: w ∧ stop c = true) (hv : v = [] ∨ ∃ c w, v = c :: w ∧ stop c = true) (h : a ++ u = b ++ v) : a = b ∧ u = v := by
  have e : a = b := by rw [← takeWhile_name ha hu, ← takeWhile_name hb hv, h]
  subst e
  exact ⟨rfl, List.append_cancel_left h⟩

theorem Ending.stops {u : List Byte} (h : Ending u) : u = [] ∨ ∃ c w, u = c :: w ∧ stop c = true := by
  rcases h with rfl | ⟨v, rfl | rfl⟩
  · exact .inl rfl
  · exact .inr ⟨_, _, rfl, rfl⟩
  · exact .inr ⟨_, _, rfl, rfl⟩

theorem registered (t : Ty) : (∃ p, t = .prim p) ∨ (detailsName t = text "Unknown" ∧ element t = .other 0) := by
  cases t with
  | prim p => exact .inl ⟨p, rfl⟩
  | _ => exact .inr ⟨rfl, rfl⟩

theorem name_clean (t : Ty) : (detailsName t).all (fun c => !stop c) = true := by
  rcases registered t with ⟨p, rfl⟩ | ⟨h, _⟩
  · cases p <;> decide
  · rw [h]; decide

theorem cont_clean (k : Cont) : (k.name).all (fun c => !stop c) = true := by cases k <;> decide

theorem pair_clean : (text "std::pair").all (fun c => !stop c) = true := by decide

theorem prim_known (p : Prim) : p.name ≠ text "Unknown" := by cases p <;> decide

theorem element_eq {a b : Ty} (h : detailsName a = detailsName b) : element a = element b := by
  rcases registered a with ⟨p, rfl⟩ | ⟨ha, ha'⟩ <;> rcases registered b with ⟨q, rfl⟩ | ⟨hb, hb'⟩
  · revert h; cases p <;> cases q <;> decide
  · rw [hb] at h; exact absurd h (prim_known p)
  · rw [ha] at h; exact absurd h.symm (prim_known q)
  · rw [ha', hb']

theorem not_pair (t : Ty) : detailsName t ≠ text "std::pair" := by
  rcases registered t with ⟨p, rfl⟩ | ⟨h, _⟩
  · cases p <;> decide
  · rw [h]; decide

theorem cont_not_element (k : Cont) (t : Ty) : detailsName t ≠ k.name := by
  rcases registered t with ⟨p, rfl⟩ | ⟨h, _⟩
  · cases p <;> cases k <;> decide
  · rw [h]; cases k <;> decide

theorem cont_not_pair (k : Cont) : k.name ≠ text "std::pair" := by cases k <;> decide

theorem cont_eq {j k : Cont} (h : j.name = k.name) : j = k := by revert h; cases j <;> cases k <;> decide

/-- The name of a possible type, as a text. -/
def memberText : Ty → List Byte
  | .pair a b => text "std::pair" ++ (60 :: (memberText a ++ (44 :: (memberText b ++ [62]))))
  | .array t n => detailsName t ++ (91 :: (decText n ++ [93]))
  | t => detailsName t

theorem nameInPair_eq : ∀ t, Possible t → nameInPair t = ok (memberText t)
  | .prim _, _ => rfl
  | .other _, _ => rfl
  | .pair a b, h => by
    rw [nameInPair, nameInPair_eq a h.1, ok_bind, nameInPair_eq b h.2, ok_bind, memberText]
    simp [text]
  | .cont _ _, _ => rfl
  | .array t n, h => by
    rw [nameInPair, arrayName, Number.C28_unsigned_text n h.2, ok_bind, memberText]
    simp [text]

theorem typeName_eq (t : Ty) (h : Possible t) :
    typeName t = ok (match t with | .cont k t => k.name ++ (60 :: (detailsName t ++ [62])) | t => memberText t) := by
  cases t with
  | cont k t => simp [typeName, text]
  | _ => exact nameInPair_eq _ h

theorem digits_read {m n : Nat} {u v : List Byte} (h : decText m ++ 93 :: u = decText n ++ 93 :: v) : m = n ∧ u = v := by
  have key : ∀ (m : Nat) (u : List Byte), (decText m ++ 93 :: u).takeWhile (fun c => decide (isDigit c)) = decText m := by
    intro m u
    rw [List.takeWhile_append_of_pos (fun c hc => by simpa using (Number.decText_digits m).1.2 c hc)]
    simp [isDigit]
  have e : decText m = decText n := by rw [← key m u, ← key n v, h]
  have hmn : m = n := by rw [← (Number.decText_digits m).2, ← (Number.decText_digits n).2, e]
  subst hmn
  have := List.append_cancel_left h
  exact ⟨rfl, (List.cons.inj this).2⟩

/-- The text of a member begins with a name that is no container's, and a stop or an ending follows. -/
theorem member_read : ∀ (a b : Ty) (u v : List Byte), Ending u → Ending v → memberText a ++ u = memberText b ++ v → member a = member b ∧ u = v := by
  have atom : ∀ (a : Ty), (∀ x y, a ≠ .pair x y) → (∀ t n, a ≠ .array t n) → memberText a = detailsName a ∧ member a = element a := by
    intro a h1 h2
    cases a with
    | pair x y => exact absurd rfl (h1 x y)
    | array t n => exact absurd rfl (h2 t n)
    | _ => exact ⟨rfl, rfl⟩
  have pairText : ∀ x y (u : List Byte), memberText (.pair x y) ++ u = text "std::pair" ++ (60 :: (memberText x ++ (44 :: (memberText y ++ (62 :: u))))) := by
    intro x y u; simp [memberText]
  have arrayText : ∀ t n (u : List Byte), memberText (.array t n) ++ u = detailsName t ++ (91 :: (decText n ++ (93 :: u))) := by
    intro t n u; simp [memberText]
  have s60 : ∀ w : List Byte, (60 :: w) = [] ∨ ∃ c x, (60 :: w : List Byte) = c :: x ∧ stop c = true := fun w => .inr ⟨_, _, rfl, rfl⟩
  have s91 : ∀ w : List Byte, (91 :: w) = [] ∨ ∃ c x, (91 :: w : List Byte) = c :: x ∧ stop c = true := fun w => .inr ⟨_, _, rfl, rfl⟩
  have noBegin : ∀ {u w : List Byte}, Ending u → u ≠ 60 :: w ∧ u ≠ 91 :: w := by
    intro u w h
    rcases h with rfl | ⟨v, rfl | rfl⟩ <;> simp
  -- a member that is no pair
  have simple : ∀ (a b : Ty) (u v : List Byte), (∀ x y, a ≠ .pair x y) → Ending u → Ending v → memberText a ++ u = memberText b ++ v → member a = member b ∧ u = v := by
    intro a b u v ha hu hv h
    by_cases hb : ∃ x y, b = .pair x y
    · obtain ⟨x, y, rfl⟩ := hb
      rw [pairText] at h
      by_cases haa : ∃ t n, a = .array t n
      · obtain ⟨t, n, rfl⟩ := haa
        rw [arrayText] at h
        exact absurd (split_name (name_clean t) pair_clean (s91 _) (s60 _) h).1 (not_pair t)
      · obtain ⟨e1, e2⟩ := atom a ha (by simpa using haa)
        rw [e1] at h
        exact absurd (split_name (name_clean a) pair_clean hu.stops (s60 _) h).1 (not_pair a)
    · have hb : ∀ x y, b ≠ .pair x y := by simpa using hb
      by_cases haa : ∃ t n, a = .array t n
      · obtain ⟨t, n, rfl⟩ := haa
        rw [arrayText] at h
        by_cases hba : ∃ t n, b = .array t n
        · obtain ⟨t', n', rfl⟩ := hba
          rw [arrayText] at h
          obtain ⟨h1, h2⟩ := split_name (name_clean t) (name_clean t') (s91 _) (s91 _) h
          obtain ⟨rfl, rfl⟩ := digits_read (List.cons.inj h2).2
          exact ⟨by simp only [member, element_eq h1], rfl⟩
        · obtain ⟨e1, e2⟩ := atom b hb (by simpa using hba)
          rw [e1] at h
          exact absurd (split_name (name_clean t) (name_clean b) (s91 _) hv.stops h).2.symm (noBegin hv).2
      · obtain ⟨e1, e2⟩ := atom a ha (by simpa using haa)
        rw [e1] at h
        by_cases hba : ∃ t n, b = .array t n
        · obtain ⟨t', n', rfl⟩ := hba
          rw [arrayText] at h
          exact absurd (split_name (name_clean a) (name_clean t') hu.stops (s91 _) h).2 (noBegin hu).2
        · obtain ⟨e3, e4⟩ := atom b hb (by simpa using hba)
          rw [e3] at h
          obtain ⟨h1, h2⟩ := split_name (name_clean a) (name_clean b) hu.stops hv.stops h
          rw [e2, e4]
          exact ⟨element_eq h1, h2⟩
  intro a
  induction a with
  | pair x y ihx ihy =>
    intro b u v hu hv h
    by_cases hb : ∃ x y, b = .pair x y
    · obtain ⟨x', y', rfl⟩ := hb
      rw [pairText, pairText] at h
      have h := (List.cons.inj (List.append_cancel_left h)).2
      obtain ⟨h1, h⟩ := ihx x' _ _ (.inr ⟨_, .inr rfl⟩) (.inr ⟨_, .inr rfl⟩) h
      obtain ⟨h2, h⟩ := ihy y' _ _ (.inr ⟨_, .inl rfl⟩) (.inr ⟨_, .inl rfl⟩) (List.cons.inj h).2
      exact ⟨by simp only [member, h1, h2], (List.cons.inj h).2⟩
    · obtain ⟨h1, h2⟩ := simple b (.pair x y) v u (by simpa using hb) hv hu h.symm
      exact ⟨h1.symm, h2.symm⟩
  | prim p => intro b u v hu hv h; exact simple _ b u v (by simp) hu hv h
  | other n => intro b u v hu hv h; exact simple _ b u v (by simp) hu hv h
  | cont k t _ => intro b u v hu hv h; exact simple _ b u v (by simp) hu hv h
  | array t n _ => intro b u v hu hv h; exact simple _ b u v (by simp) hu hv h

theorem memberText_told {t : Ty} : memberText t = memberText (member t) := by
  have el : ∀ t, detailsName (element t) = detailsName t := by
    intro t; rcases registered t with ⟨p, rfl⟩ | ⟨h, h'⟩
    · rfl
    · rw [h', h]; rfl
  induction t with
  | pair a b iha ihb => rw [member, memberText, memberText, ← iha, ← ihb]
  | array t n _ => rw [member, memberText, memberText, el]
  | _ => rfl

theorem text_head (t : Ty) : ∃ a u, memberText t = a ++ u ∧ a.all (fun c => !stop c) = true ∧ (u = [] ∨ ∃ c w, u = c :: w ∧ stop c = true) ∧ ∀ k : Cont, a ≠ k.name := by
  cases t with
  | pair a b => exact ⟨_, _, rfl, pair_clean, .inr ⟨_, _, rfl, rfl⟩, fun k => (cont_not_pair k).symm⟩
  | array t n => exact ⟨_, _, rfl, name_clean t, .inr ⟨_, _, rfl, rfl⟩, fun k => cont_not_element k t⟩
  | prim p => exact ⟨_, [], (List.append_nil _).symm, name_clean (.prim p), .inl rfl, fun k => cont_not_element k _⟩
  | other n => exact ⟨_, [], (List.append_nil _).symm, name_clean (.other n), .inl rfl, fun k => cont_not_element k _⟩
  | cont j t => exact ⟨_, [], (List.append_nil _).symm, name_clean (.cont j t), .inl rfl, fun k => cont_not_element k _⟩

theorem cont_member_ne (k : Cont) (t u : Ty) : k.name ++ (60 :: (detailsName t ++ [62])) ≠ memberText u := by
  intro h
  obtain ⟨a, r, e, hc, hr, hk⟩ := text_head u
  rw [e] at h
  exact hk k (split_name (cont_clean k) hc (.inr ⟨_, _, rfl, rfl⟩) hr h).1.symm

theorem text_told (a b : Ty) (ha : Possible a) (hb : Possible b) : typeName a = typeName b ↔ told a = told b := by
  have noCont : ∀ (k : Cont) (x t : Ty), member t ≠ .cont k x := by
    intro k x t
    cases t <;> simp [member, element]
  have mem : ∀ t, (∀ k x, t ≠ .cont k x) → told t = member t ∧ (Possible t → typeName t = ok (memberText t)) := by
    intro t ht
    cases t with
    | cont k x => exact absurd rfl (ht k x)
    | _ => exact ⟨rfl, fun h => typeName_eq _ h⟩
  by_cases hca : ∃ k x, a = .cont k x <;> by_cases hcb : ∃ k x, b = .cont k x
  · obtain ⟨k, x, rfl⟩ := hca
    obtain ⟨j, y, rfl⟩ := hcb
    rw [typeName_eq _ ha, typeName_eq _ hb]
    simp only [told, Ty.cont.injEq]
    constructor
    · intro h
      obtain ⟨h1, h2⟩ := split_name (cont_clean k) (cont_clean j) (.inr ⟨_, _, rfl, rfl⟩) (.inr ⟨_, _, rfl, rfl⟩) (Outcome.ok.inj h)
      have h2 := (List.cons.inj h2).2
      exact ⟨cont_eq h1, element_eq (List.append_cancel_right h2)⟩
    · rintro ⟨rfl, h⟩
      have : detailsName x = detailsName y := by
        rcases registered x with ⟨p, rfl⟩ | ⟨h1, h1'⟩ <;> rcases registered y with ⟨q, rfl⟩ | ⟨h2, h2'⟩
        · simp only [element, Ty.prim.injEq] at h; rw [h]
        · rw [h2'] at h; simp [element] at h
        · rw [h1'] at h; simp [element] at h
        · rw [h1, h2]
      rw [this]
  · obtain ⟨k, x, rfl⟩ := hca
    obtain ⟨e1, e2⟩ := mem b (by simpa using hcb)
    rw [typeName_eq _ ha, e2 hb, e1]
    exact ⟨fun h => absurd (Outcome.ok.inj h) (cont_member_ne k x b), fun h => absurd h.symm (noCont k _ b)⟩
  · obtain ⟨k, x, rfl⟩ := hcb
    obtain ⟨e1, e2⟩ := mem a (by simpa using hca)
    rw [typeName_eq _ hb, e2 ha, e1]
    exact ⟨fun h => absurd (Outcome.ok.inj h).symm (cont_member_ne k x a), fun h => absurd h (noCont k _ a)⟩
  · obtain ⟨e1, e2⟩ := mem a (by simpa using hca)
    obtain ⟨e3, e4⟩ := mem b (by simpa using hcb)
    rw [e2 ha, e4 hb, e1, e3]
    constructor
    · intro h
      have h := Outcome.ok.inj h
      exact (member_read a b [] [] (.inl rfl) (.inl rfl) (by rw [h])).1
    · intro h
      rw [memberText_told, h, ← memberText_told]

theorem member_fixed : ∀ {t : Ty}, Member t → member t = t ∧ Possible t
  | .prim _, _ => ⟨rfl, trivial⟩
  | .pair a b, h => by
    obtain ⟨h1, h2⟩ := member_fixed (t := a) h.1
    obtain ⟨h3, h4⟩ := member_fixed (t := b) h.2
    exact ⟨by rw [member, h1, h3], h2, h4⟩
  | .array (.prim p) n, h => ⟨rfl, trivial, h⟩
  | .array (.other _) _, h => absurd h (by simp [Member])
  | .array (.pair _ _) _, h => absurd h (by simp [Member])
  | .array (.cont _ _) _, h => absurd h (by simp [Member])
  | .array (.array _ _) _, h => absurd h (by simp [Member])
  | .other _, h => h.elim
  | .cont _ _, h => h.elim

theorem named_fixed {t : Ty} (h : Named t) : told t = t ∧ Possible t := by
  cases t with
  | cont k t =>
    cases t with
    | prim p => exact ⟨rfl, trivial⟩
    | _ => exact h.elim
  | _ => exact member_fixed h

/-! ## C182 -/

/-- Types that are built of registered ones in the ways the library knows have different names when they are different. -/
theorem C182_distinct_partial (a b : Ty) (ha : Named a) (hb : Named b) (h : typeName a = typeName b) : a = b := by
  obtain ⟨e1, p1⟩ := named_fixed ha
  obtain ⟨e2, p2⟩ := named_fixed hb
  rw [← e1, ← e2]
  exact (text_told a b p1 p2).mp h

/-- In general, two types have the same name precisely when they agree in what is told of them. -/
theorem C182_exact (a b : Ty) (ha : Possible a) (hb : Possible b) : typeName a = typeName b ↔ told a = told b := text_told a b ha hb

/-- There is always a name. -/
theorem C182_total (t : Ty) (h : Possible t) : ∃ s, typeName t = ok s ∧ s ≠ [] := by
  have key : ∀ t, memberText t ≠ [] := by
    intro t
    have hd : ∀ t, detailsName t ≠ [] := by
      intro t
      rcases registered t with ⟨p, rfl⟩ | ⟨h, _⟩
      · cases p <;> decide
      · rw [h]; decide
    cases t with
    | pair a b => simp [memberText]
    | array t n => simp [memberText]
    | prim p => exact hd (.prim p)
    | other n => exact hd (.other n)
    | cont k x => exact hd (.cont k x)
  refine ⟨_, typeName_eq t h, ?_⟩
  cases t with
  | cont k x => simp
  | pair a b => exact key _
  | array t n => exact key _
  | prim p => exact key _
  | other n => exact key _

/-- The names of the compound types, of the names of their parts. -/
theorem C182_pair (a b : Ty) (x y : List Byte) (ha : ∀ k t, a ≠ .cont k t) (hb : ∀ k t, b ≠ .cont k t) (hx : typeName a = ok x) (hy : typeName b = ok y) :
    typeName (.pair a b) = ok (text "std::pair<" ++ x ++ text "," ++ y ++ text ">") := by
  have key : ∀ t, (∀ k x, t ≠ .cont k x) → typeName t = nameInPair t := by
    intro t ht
    cases t with
    | cont k x => exact absurd rfl (ht k x)
    | _ => rfl
  rw [key a ha] at hx
  rw [key b hb] at hy
  rw [typeName, nameInPair, hx, ok_bind, hy, ok_bind]
  intro k t; simp

/-- An array or a container of a registered type. -/
theorem C182_compound (p : Prim) (x : List Byte) (hx : typeName (.prim p) = ok x) (k : Cont) (n : Nat) (hn : n < 2 ^ 64) :
    typeName (.cont k (.prim p)) = ok (k.name ++ text "<" ++ x ++ text ">") ∧ typeName (.array (.prim p) n) = ok (x ++ text "[" ++ decText n ++ text "]") := by
  have e : p.name = x := Outcome.ok.inj hx
  subst e
  refine ⟨rfl, ?_⟩
  rw [typeName, nameInPair, arrayName, Number.C28_unsigned_text n hn, ok_bind]; rfl
  intro k t; simp

/-- The words of a name, parted by spaces. -/
def words (s : List Byte) : List (List Byte) := s.splitOnP (· == 32)

/-- The type that type specifiers stand for in the language: their order does not count (table "simple-type-specifiers" of the standard). -/
def denotes (ws : List (List Byte)) : Option Prim :=
  let n (w : String) : Nat := ws.count (text w)
  if ws = [text "std::string"] then some .string
  else if ws = [text "float"] then some .float
  else if n "double" = 1 then (if ws.length = 1 then some .double else if ws.length = 2 ∧ n "long" = 1 then some .ldouble else none)
  else if n "char" = 1 then (if ws.length ≠ 2 then none else if n "signed" = 1 then some .schar else if n "unsigned" = 1 then some .uchar else none)
  else if n "signed" + n "unsigned" ≤ 1 ∧ n "short" ≤ 1 ∧ n "long" ≤ 2 ∧ n "int" ≤ 1 ∧ n "short" * n "long" = 0 ∧ ws ≠ [] ∧
      ws.length = n "signed" + n "unsigned" + n "short" + n "long" + n "int" then
    (if n "unsigned" = 1 then (if n "short" = 1 then some .ushort else if n "long" = 1 then some .ulong else if n "long" = 2 then some .ullong else some .uint)
     else (if n "short" = 1 then some .short else if n "long" = 1 then some .long else if n "long" = 2 then some .llong else some .int))
  else none

/-- The container a qualified name stands for. -/
def denotesCont (s : List Byte) : Option Cont :=
  if s.take 5 = text "std::" then [Cont.vector, .deque, .list, .set, .multiset].find? fun k => s.drop 5 = text (match k with
    | .vector => "vector" | .deque => "deque" | .list => "list" | .set => "set" | .multiset => "multiset")
  else none

/-- The name of a registered type, read as the language reads it, is that type; the name of a container before the bracket is that container. -/
theorem C182_denotes (p : Prim) (k : Cont) (x : List Byte) (hx : typeName (.prim p) = ok x) :
    denotes (words x) = some p ∧ ∃ c, denotesCont c = some k ∧ typeName (.cont k (.prim p)) = ok (c ++ text "<" ++ x ++ text ">") := by
  have e : p.name = x := Outcome.ok.inj hx
  subst e
  refine ⟨?_, k.name, ?_, rfl⟩
  · cases p <;> decide +kernel
  · cases k <;> decide +kernel

example : typeName (.prim .ullong) = ok (text "unsigned long long int") := by decide +kernel

/-- A container in a pair, and a container of anything but a registered type, is not told: its name is that of every other such type. -/
theorem C182_lost (k j : Cont) (s t u : Ty) (hs : ∀ p, s ≠ .prim p) (ht : ∀ p, t ≠ .prim p) :
    typeName (.pair (.cont k s) u) = typeName (.pair (.cont j t) u) ∧ typeName (.pair u (.cont k s)) = typeName (.pair u (.cont j t)) ∧ typeName (.cont k s) = typeName (.cont k t) := by
  have key : ∀ t : Ty, (∀ p, t ≠ .prim p) → detailsName t = text "Unknown" := by
    intro t ht
    rcases registered t with ⟨p, rfl⟩ | ⟨h, _⟩
    · exact absurd rfl (ht p)
    · exact h
  refine ⟨rfl, rfl, ?_⟩
  simp only [typeName, key s hs, key t ht]

example : typeName (.pair (.prim .int) (.pair (.prim .string) (.array (.prim .double) 12))) = ok (text "std::pair<int,std::pair<std::string,double[12]>>") := by
  rw [typeName_eq _ (by simp [Possible])]
  show ok (memberText _) = _
  have h : decText 12 = text "12" := by rw [decText, dif_neg (by decide), decText, dif_pos (by decide)]; decide
  simp only [memberText, h]
  decide

example : typeName (.cont .multiset (.prim .ullong)) = ok (text "std::multiset<unsigned long long int>") := by decide

-- `std::vector<std::vector<int>>` and `std::vector<std::list<double>>`
example : typeName (.cont .vector (.cont .vector (.prim .int))) = ok (text "std::vector<Unknown>") ∧
    typeName (.cont .vector (.cont .list (.prim .double))) = ok (text "std::vector<Unknown>") := by decide

-- `char` and `bool`
example : typeName (.other 0) = ok (text "Unknown") ∧ typeName (.other 1) = ok (text "Unknown") := by decide

example : Named (.pair (.prim .int) (.array (.prim .string) 7)) ∧ Named (.cont .set (.prim .float)) := by simp [Named, Member]

example := C182_distinct_partial (.pair (.prim .int) (.prim .long)) (.pair (.prim .int) (.prim .long)) (by simp [Named, Member]) (by simp [Named, Member]) rfl
example := C182_exact (.cont .vector (.prim .int)) (.array (.prim .int) 3) (by simp [Possible]) (by simp [Possible])
example := C182_total (.array (.prim .int) 3) (by simp [Possible])
example := C182_pair (.prim .int) (.prim .float) _ _ (by simp) (by simp) rfl rfl
example := C182_compound .int _ rfl .deque 12 (by decide)
example := C182_lost .vector .list (.other 3) (.cont .set (.prim .int)) (.prim .int) (by simp) (by simp)

end Strtk.TypeNames
