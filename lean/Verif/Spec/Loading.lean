import Verif.Model.Simulation
/-
Specification of the documents that the `from_dict` methods accept.
-/
set_option autoImplicit false

namespace Pyl
namespace Spec

/-- White space in ASCII, as `int()` sees it. -/
def blanks : List Char := ['\t', '\n', '\x0b', '\x0c', '\r', '\x1c', '\x1d', '\x1e', '\x1f', ' ']

/-- The number written by a list of decimal digits. -/
def digitsValue (l : List Char) : ℕ := l.foldl (fun n c => 10 * n + (c.toNat - 48)) 0

/-- `text` is an int literal as `int(text)` accepts it, with value `i`: white space, an optional sign, groups of digits joined by underscores, white space.
(Only ASCII digits and white space.) -/
def IntLiteral (text : String) (i : ℤ) : Prop :=
  ∃ (pre sign : List Char) (groups : List (List Char)) (post : List Char), (∀ c ∈ pre, c ∈ blanks) ∧ (∀ c ∈ post, c ∈ blanks) ∧
    (sign = [] ∨ sign = ['+'] ∨ sign = ['-']) ∧ groups ≠ [] ∧ (∀ g ∈ groups, g ≠ [] ∧ ∀ c ∈ g, 48 ≤ c.toNat ∧ c.toNat ≤ 57) ∧
    text.toList = pre ++ sign ++ List.intercalate ['_'] groups ++ post ∧
    i = if sign = ['-'] then -(digitsValue groups.flatten : ℤ) else digitsValue groups.flatten

/-- The key of a document stands for the int `i`: it is `i`, or a literal of it. -/
def Denotes : Key → ℤ → Prop
  | .int j, i => j = i
  | .str s, i => IntLiteral s i

/-- Of the entries of a document whose key stands for `i`, the last has the value `v`. -/
def LastEntry (d : Props) (i : ℤ) (v : Val) : Prop := ∃ before k after, d = before ++ (k, v) :: after ∧ Denotes k i ∧ ∀ kv ∈ after, ¬ Denotes kv.1 i

/-- A document of a state: `{"state": {"SITES": sites, ...}, ...}`. -/
def StateParts (d st sites : Props) : Prop := Dict.get? d (.str "state") = some (.dict st) ∧ Dict.get? st SITES = some (.dict sites)

/-- The document of one site: `{"_site_class": name, "_location": coordinates, ...}`; the coordinates are a list or a tuple. -/
def SiteDoc {d : ℕ} (v : Val) (name : String) (loc : Fin d → ℚ) : Prop :=
  ∃ t, v = .dict t ∧ Dict.get? t (.str "_site_class") = some (.str name) ∧
    (Dict.get? t (.str "_location") = some (.list (List.ofFn fun i => .num (loc i))) ∨
      Dict.get? t (.str "_location") = some (.tup (List.ofFn fun i => .num (loc i))))

/-- `T` is what comes of adding the sites `pts` to `S` one after the other, all of them accepted. -/
inductive Adds {d : ℕ} : Structure ℚ d → List (String × (Fin d → ℚ)) → Structure ℚ d → Prop
  | nil (S) : Adds S [] S
  | cons {S S' T : Structure ℚ d} {name loc rest} {i : ℕ} : S.addSite name loc = (S', .ok i) → Adds S' rest T → Adds S ((name, loc) :: rest) T

end Spec
end Pyl
