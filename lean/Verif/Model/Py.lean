/-
Python building blocks used by the model of pylattica: exceptions as values, dict keys, values,
and insertion-ordered dicts.  No pylattica code is modelled in this file.
-/
set_option autoImplicit false

namespace Pyl

/-- The Python exception classes the modelled code can raise. -/
inductive Err where
  | typeError | keyError | valueError | indexError | attributeError
  | assertionError | runtimeError | zeroDivisionError | stopIteration | linAlgError | overflowError
deriving DecidableEq, Repr

/-- A Python computation that returns a value or raises.  After a raise the model forgets the
(possibly half-updated) objects; no theorem speaks about them unless it says so. -/
abbrev Py (α : Type _) := Except Err α

/-- Dict keys occurring in the code: ints (site ids) and strings (state keys, `"SITES"`, `"GENERAL"`). -/
inductive Key where
  | int (i : Int)
  | str (s : String)
deriving DecidableEq, Repr

/-- Python values stored in states.  `num` stands for int, bool and float alike, because Python
compares (and hashes) them as equal whenever they are numerically equal.  NaN/inf are not modelled.
Lean's `=` on `Val` is structural; Python's `==` (which ignores the insertion order of nested dicts) is
`Val.PyEq` below. -/
inductive Val where
  | pyNone
  | num (q : Rat)
  | str (s : String)
  | list (l : List Val)
  | tup (l : List Val)
  | dict (d : List (Key × Val))

mutual
/-- Decidable equality of values. -/
def Val.decEq : (a b : Val) → Decidable (a = b)
  | .pyNone, .pyNone => isTrue rfl
  | .num p, .num q => if h : p = q then isTrue (h ▸ rfl) else isFalse (by simpa using h)
  | .str p, .str q => if h : p = q then isTrue (h ▸ rfl) else isFalse (by simpa using h)
  | .list p, .list q => match Val.decEqList p q with
      | isTrue h => isTrue (h ▸ rfl)
      | isFalse h => isFalse (by simpa using h)
  | .tup p, .tup q => match Val.decEqList p q with
      | isTrue h => isTrue (h ▸ rfl)
      | isFalse h => isFalse (by simpa using h)
  | .dict p, .dict q => match Val.decEqDict p q with
      | isTrue h => isTrue (h ▸ rfl)
      | isFalse h => isFalse (by simpa using h)
  | .pyNone, .num _ | .pyNone, .str _ | .pyNone, .list _ | .pyNone, .tup _ | .pyNone, .dict _
  | .num _, .pyNone | .num _, .str _ | .num _, .list _ | .num _, .tup _ | .num _, .dict _
  | .str _, .pyNone | .str _, .num _ | .str _, .list _ | .str _, .tup _ | .str _, .dict _
  | .list _, .pyNone | .list _, .num _ | .list _, .str _ | .list _, .tup _ | .list _, .dict _
  | .tup _, .pyNone | .tup _, .num _ | .tup _, .str _ | .tup _, .list _ | .tup _, .dict _
  | .dict _, .pyNone | .dict _, .num _ | .dict _, .str _ | .dict _, .list _ | .dict _, .tup _ =>
      isFalse (by simp)
/-- Decidable equality of value lists. -/
def Val.decEqList : (a b : List Val) → Decidable (a = b)
  | [], [] => isTrue rfl
  | [], _ :: _ => isFalse (by simp)
  | _ :: _, [] => isFalse (by simp)
  | a :: as, b :: bs => match Val.decEq a b, Val.decEqList as bs with
      | isTrue h, isTrue h' => isTrue (by rw [h, h'])
      | isFalse h, _ => isFalse (by simp [h])
      | _, isFalse h => isFalse (by simp [h])
/-- Decidable equality of entry lists. -/
def Val.decEqDict : (a b : List (Key × Val)) → Decidable (a = b)
  | [], [] => isTrue rfl
  | [], _ :: _ => isFalse (by simp)
  | _ :: _, [] => isFalse (by simp)
  | (k, a) :: as, (l, b) :: bs =>
      if hk : k = l then
        match Val.decEq a b, Val.decEqDict as bs with
        | isTrue h, isTrue h' => isTrue (by rw [hk, h, h'])
        | isFalse h, _ => isFalse (by simp [h])
        | _, isFalse h => isFalse (by simp [h])
      else isFalse (by simp [hk])
end

instance : DecidableEq Val := Val.decEq

/-- A Python dict: entries in insertion order. -/
abbrev Dict (κ : Type _) (ν : Type _) := List (κ × ν)

namespace Dict
variable {κ ν : Type _}

/-- `list(d.keys())` -/
def keys (d : Dict κ ν) : List κ := d.map Prod.fst
/-- `list(d.values())` -/
def values (d : Dict κ ν) : List ν := d.map Prod.snd

/-- Keys are pairwise different.  Every Python dict satisfies this. -/
def WF (d : Dict κ ν) : Prop := (keys d).Nodup

variable [DecidableEq κ]

/-- `d.get(k)` (`none` when the key is absent). -/
def get? : Dict κ ν → κ → Option ν
  | [], _ => none
  | (k', v) :: d, k => if k' = k then some v else get? d k

/-- `k in d` -/
def has (d : Dict κ ν) (k : κ) : Bool := (get? d k).isSome

/-- `d[k] = v`: an existing key keeps its position, a new key goes to the end. -/
def set : Dict κ ν → κ → ν → Dict κ ν
  | [], k, v => [(k, v)]
  | (k', v') :: d, k, v => if k' = k then (k', v) :: d else (k', v') :: set d k v

/-- `d.update(u)`; also `{**d, **u}`. -/
def update (d u : Dict κ ν) : Dict κ ν := u.foldl (fun acc kv => set acc kv.1 kv.2) d

/-- Dict built by a comprehension `{k: v for k, v in l}` (later entries overwrite earlier ones). -/
def ofPairs (l : List (κ × ν)) : Dict κ ν := update [] l

/-- `d == e` for dicts whose values are compared by `R`: same keys, related values, order ignored. -/
def EqvBy (R : ν → ν → Prop) (d e : Dict κ ν) : Prop :=
  ∀ k, (get? d k = none ↔ get? e k = none) ∧ ∀ a b, get? d k = some a → get? e k = some b → R a b

end Dict

/-- A Python dict with `Key` keys and `Val` values. -/
abbrev Props := Dict Key Val

/-- Python's `==` on values: elementwise on lists and tuples, order-insensitive on dicts. -/
inductive Val.PyEq : Val → Val → Prop
  | refl (a : Val) : Val.PyEq a a
  | list {l m : List Val} : l.length = m.length →
      (∀ (i : Nat) a b, l[i]? = some a → m[i]? = some b → Val.PyEq a b) → Val.PyEq (.list l) (.list m)
  | tup {l m : List Val} : l.length = m.length →
      (∀ (i : Nat) a b, l[i]? = some a → m[i]? = some b → Val.PyEq a b) → Val.PyEq (.tup l) (.tup m)
  | dict {d e : Props} : (∀ k, Dict.get? d k = none ↔ Dict.get? e k = none) →
      (∀ k a b, Dict.get? d k = some a → Dict.get? e k = some b → Val.PyEq a b) →
      Val.PyEq (.dict d) (.dict e)

/-- All dicts inside a value have pairwise different keys (true of every Python value). -/
inductive Val.WF : Val → Prop
  | pyNone : Val.WF .pyNone
  | num (q) : Val.WF (.num q)
  | str (s) : Val.WF (.str s)
  | list {l : List Val} : (∀ a ∈ l, Val.WF a) → Val.WF (.list l)
  | tup {l : List Val} : (∀ a ∈ l, Val.WF a) → Val.WF (.tup l)
  | dict {d : Props} : Dict.WF d → (∀ kv ∈ d, Val.WF kv.2) → Val.WF (.dict d)

end Pyl
