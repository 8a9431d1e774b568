import Verif.Model.Json
/-
Model of `to_file` and `from_file` of src/pylattica/core/simulation_result.py: file names and what the files hold.
-/
set_option autoImplicit false

namespace Pyl

/-- What `datetime.datetime.now()` reads off the clock. -/
structure Clock where
  year : Nat
  month : Nat
  day : Nat
  hour : Nat
  minute : Nat
  second : Nat

/-- `%m`, `%d`, `%H` and `%M` of `strftime`: two digits. -/
def twoDigits (n : Nat) : String := if n < 10 then "0" ++ toString n else toString n

namespace SimResult

/-- core/simulation_result.py:149-151: the name of the file from the clock; `%Y` has four digits for the years a clock shows. -/
def clockName (now : Clock) : String :=
  twoDigits now.month ++ "-" ++ twoDigits now.day ++ "-" ++ toString now.year ++ "-" ++ twoDigits now.hour ++ "-" ++ twoDigits now.minute ++ ".json"

/-- Result files by name; the content of a file is the value that its JSON text stands for. -/
abbrev ResultFiles := Dict String Val

/-- core/simulation_result.py:140-154 `to_file`: the files afterwards and the returned name.  `dumpfn` of monty writes JSON, over an old file of that name
(names with `mpk` or `yaml` in them, for which it writes other formats, and names that cannot be written are not modelled). -/
def toFile (now : Clock) (r : SimResult) (fpath : Option String) (files : ResultFiles) : ResultFiles × String :=
  let name := match fpath with
    | some f => f
    | none => clockName now
  (Dict.set files name (Val.dict r.asDict).json, name)

/-- core/simulation_result.py:19-21 `from_file`: `loadfn` reads the value, and the entry `@class` makes monty call `from_dict`.  `none`: there is no such file
(FileNotFoundError). -/
def fromFile (files : ResultFiles) (fpath : String) : Option (Py SimResult) :=
  match Dict.get? files fpath with
  | none => none
  | some (.dict d) => some (fromDict d)
  | some _ => some (.error .typeError)

end SimResult
end Pyl
