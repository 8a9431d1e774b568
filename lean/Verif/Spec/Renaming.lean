import Verif.Model.Runner
import Verif.Model.Growth
/-
Specification vocabulary for the renaming of values (C137): `h k v` is the new name of the value `v` of the property `k`.
-/
set_option autoImplicit false

namespace Pyl
namespace Spec

/-- The values of a dict, each replaced by its new name; keys and order stay. -/
def mapD {κ ν μ : Type} (F : κ → ν → μ) (d : Dict κ ν) : Dict κ μ := d.map fun kv => (kv.1, F kv.1 kv.2)

/-- The state with all properties of its sites renamed; the general state is left alone. -/
def renState (h : Key → Val → Val) (s : SimState) : SimState := ⟨mapD (fun _ p => mapD h p) s.sites, s.general⟩

/-- An update of one site (anything but a dict is left alone). -/
def renVal (h : Key → Val → Val) : Val → Val
  | .dict d => .dict (mapD h d)
  | v => v

/-- Updates of several sites, by their ids. -/
def renSites (h : Key → Val → Val) (d : Props) : Props := mapD (fun _ v => renVal h v) d

/-- A section of sites (anything but a dict is left alone). -/
def renBlock (h : Key → Val → Val) : Val → Val
  | .dict e => .dict (renSites h e)
  | v => v

/-- A dict with a section of sites. -/
def renSection (h : Key → Val → Val) (d : Props) : Props := mapD (fun k v => if k = SITES then renBlock h v else v) d

/-- An answer of a rule, of one of the three forms `merge_updates` accepts: with sections, by site ids, or for the site itself. -/
def renAnswer (h : Key → Val → Val) (d : Props) : Props :=
  if Dict.has d SITES || Dict.has d GENERAL then renSection h d else if allIntKeys d then renSites h d else mapD h d

def renResp (h : Key → Val → Val) : Resp → Resp
  | .noUpdate => .noUpdate
  | .dict d => .dict (renAnswer h d)
  | .tuple d next => .tuple (d.map (renAnswer h)) next

/-- A recorded diff, of one of the two forms `batch_update` accepts. -/
def renDiff (h : Key → Val → Val) (d : Props) : Props := if Dict.has d GENERAL then renSection h d else renSites h d

def renResult (h : Key → Val → Val) (r : SimResult) : SimResult :=
  ⟨renState h r.initial, r.diffs.map (Option.map (renDiff h)), mapD (fun _ s => renState h s) r.stored, r.output.map (renState h)⟩

/-- The controller `c'` is the controller `c` in other words: on renamed states it answers with renamed answers (and raises what `c` raises).
`θ` renames what the controller remembers. -/
structure Renames {σ σ' : Type} (h : Key → Val → Val) (θ : σ → σ') (c : Controller σ) (c' : Controller σ') : Prop where
  update : ∀ st i s, c'.update (θ st) i (renState h s) = (c.update st i s).map fun r => (θ r.1, renResp h r.2)
  randomSite : ∀ st s, c'.randomSite (θ st) (renState h s) = (c.randomSite st s).map fun r => (θ r.1, r.2)
  preRun : ∀ st s, c'.preRun (θ st) (renState h s) = (c.preRun st s).map fun r => (θ r.1, renState h r.2)

/-- Site ids keep their names. -/
def KeepsIds (h : Key → Val → Val) : Prop := ∀ k : Key, h SITE_ID k.toVal = k.toVal

/-- Phases get new names, everything else keeps its value. -/
def phaseNames (ρ : Val → Val) (k : Key) (v : Val) : Val := if k = DISCRETE_OCCUPANCY then ρ v else v

end Spec
end Pyl
