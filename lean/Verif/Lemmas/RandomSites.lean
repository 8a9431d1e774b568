import Verif.Lemmas.GridSetup
/-
The two loops of `setup_random_sites`.
-/
set_option autoImplicit false
set_option linter.unusedSectionVars false

namespace Pyl
open Pyl.Lattice Structure SimState Spec
variable {K : Type} [Field K] [LinearOrder K] [IsStrictOrderedRing K] [FloorRing K] {d : ℕ}

namespace GridSetup

/-! ### quotas -/

theorem foldl_set_get? {κ ν μ : Type} [DecidableEq κ] (m : Dict κ ν) (hm : Dict.WF m) (h : κ × ν → μ) (k : κ) :
    Dict.get? (m.foldl (fun acc sa => Dict.set acc sa.1 (h sa)) []) k = (Dict.get? m k).map fun v => h (k, v) := by
  have key : ∀ (m : Dict κ ν), Dict.WF m → ∀ acc : Dict κ μ, Dict.get? (m.foldl (fun acc sa => Dict.set acc sa.1 (h sa)) acc) k =
      match Dict.get? m k with | some v => some (h (k, v)) | none => Dict.get? acc k := by
    intro m
    induction m with
    | nil => intro _ acc; rfl
    | cons a m ih =>
      intro hm acc
      rw [List.foldl_cons, ih hm.tail]
      obtain ⟨k', v'⟩ := a
      rw [Dict.get?_cons]
      by_cases e : k' = k
      · subst e
        have hn : Dict.get? m k' = none := Dict.get?_eq_none_iff.2 hm.head
        simp [hn]
      · rw [if_neg e]
        cases Dict.get? m k with
        | none => simp [Dict.get?_set, e]
        | some v => rfl
  rw [key m hm []]
  cases Dict.get? m k <;> rfl

/-- The share of a phase with amount `a`. -/
def share (nucAmts : Dict Val K) (num : ℤ) (a : K) : K := a / (Dict.values nucAmts).sum * num

theorem get?_idealSites {nucAmts : Dict Val K} (hw : Dict.WF nucAmts) (num : ℤ) (p : Val) :
    Dict.get? (idealSites nucAmts num) p = (Dict.get? nucAmts p).map (share nucAmts num) :=
  foldl_set_get? nucAmts hw (fun sa => share nucAmts num sa.2) p

theorem get?_zeroSites {nucAmts : Dict Val K} (hw : Dict.WF nucAmts) (p : Val) :
    Dict.get? (zeroSites nucAmts) p = (Dict.get? nucAmts p).map fun _ => 0 :=
  foldl_set_get? nucAmts hw (fun _ => (0 : ℤ)) p

/-- What the quota loop keeps, for any quotas `ideal`. -/
structure QInv (species : List Val) (ideal : Dict Val K) (q : Quota) : Prop where
  real : ∀ p ∈ species, Dict.get? q.real p = some (q.ids.count p : ℤ)
  mem : ∀ p ∈ q.ids, p ∈ species
  le : ∀ p x, Dict.get? ideal p = some x → q.ids.count p = 0 ∨ ((q.ids.count p : K) - 1 < x)

/-- Every phase has a quota. -/
def HasQuotas (species : List Val) (ideal : Dict Val K) : Prop := ∀ p ∈ species, ∃ x, Dict.get? ideal p = some x

theorem qInv_start {nucAmts : Dict Val K} (hw : Dict.WF nucAmts) (ideal : Dict Val K) : QInv (Dict.keys nucAmts) ideal ⟨[], zeroSites nucAmts, 0⟩ := by
  refine ⟨fun p hp => ?_, by simp, by simp⟩
  rw [get?_zeroSites hw]
  obtain ⟨v, hv⟩ := Option.isSome_iff_exists.1 (Dict.get?_isSome_iff.2 hp)
  rw [hv]; rfl

theorem hasQuotas_idealSites {nucAmts : Dict Val K} (hw : Dict.WF nucAmts) (num : ℤ) : HasQuotas (Dict.keys nucAmts) (idealSites nucAmts num) := by
  intro p hp
  obtain ⟨v, hv⟩ := Option.isSome_iff_exists.1 (Dict.get?_isSome_iff.2 hp)
  exact ⟨_, by rw [get?_idealSites hw, hv]; rfl⟩

/-- One round of the quota loop. -/
theorem quotaRound_spec {species : List Val} {ideal : Dict Val K} (hid : HasQuotas species ideal) {q : Quota} (h : QInv species ideal q) (hne : species ≠ []) :
    ∃ p x q', species[q.calls % species.length]? = some p ∧ Dict.get? ideal p = some x ∧
      quotaRound species ideal q = .ok q' ∧ QInv species ideal q' ∧ q'.calls = q.calls + 1 ∧
      ((q.ids.count p : K) < x → q'.ids = q.ids ++ [p]) ∧ (¬ (q.ids.count p : K) < x → q'.ids = q.ids) := by
  have hpos : 0 < species.length := List.length_pos_iff.2 hne
  have hlt := Nat.mod_lt q.calls hpos
  have hg : species[q.calls % species.length]? = some _ := List.getElem?_eq_getElem hlt
  set p := species[q.calls % species.length] with hp
  have hpm : p ∈ species := List.getElem_mem hlt
  obtain ⟨x, hx⟩ := hid p hpm
  by_cases hc : (q.ids.count p : K) < x
  · refine ⟨p, x, ⟨q.ids ++ [p], Dict.set q.real p ((q.ids.count p : ℤ) + 1), q.calls + 1⟩, hg, hx, ?_, ⟨fun p' hp' => ?_, fun p' hp' => ?_, fun p' x' hx' => ?_⟩, rfl, fun _ => rfl, fun h => absurd hc h⟩
    · unfold quotaRound
      rw [hg]
      simp only [h.real p hpm, hx]
      rw [if_pos (by exact_mod_cast hc)]
    · rw [Dict.get?_set]
      by_cases e : p = p'
      · subst e; simp
      · rw [if_neg e, h.real p' hp', List.count_append, List.count_singleton]
        simp [e]
    · rcases List.mem_append.1 hp' with h' | h'
      · exact h.mem p' h'
      · rw [List.mem_singleton.1 h']; exact hpm
    · by_cases e : p = p'
      · subst e
        rw [hx] at hx'; injection hx' with hx'; subst hx'
        right
        simp only [List.count_append, List.count_singleton_self]
        push_cast
        rwa [add_sub_cancel_right]
      · have : (q.ids ++ [p]).count p' = q.ids.count p' := by rw [List.count_append, List.count_singleton]; simp [e]
        simp only [this]
        exact h.le p' x' hx'
  · refine ⟨p, x, { q with calls := q.calls + 1 }, hg, hx, ?_, ⟨h.real, h.mem, h.le⟩, rfl, fun h => absurd h hc, fun _ => rfl⟩
    unfold quotaRound
    rw [hg]
    simp only [h.real p hpm, hx]
    rw [if_neg (by exact_mod_cast hc)]

theorem quotaLoop_done {species : List Val} {ideal : Dict Val K} {num : ℤ} {q : Quota} (h : ¬ (q.ids.length : ℤ) < num) (fuel : ℕ) :
    quotaLoop species ideal num fuel q = some (.ok q) := by
  cases fuel <;> simp [quotaLoop, h]

/-- More rounds do not change a finished loop. -/
theorem quotaLoop_mono {species : List Val} {ideal : Dict Val K} {num : ℤ} {fuel : ℕ} {q : Quota} {r : Py Quota}
    (h : quotaLoop species ideal num fuel q = some r) (fuel' : ℕ) (hf : fuel ≤ fuel') : quotaLoop species ideal num fuel' q = some r := by
  induction fuel generalizing q fuel' with
  | zero =>
    unfold quotaLoop at h
    split_ifs at h with hc
    rw [quotaLoop_done hc, h]
  | succ fuel ih =>
    by_cases hc : (q.ids.length : ℤ) < num
    · obtain ⟨m, rfl⟩ : ∃ m, fuel' = m + 1 := ⟨fuel' - 1, by omega⟩
      rw [quotaLoop, if_pos hc] at h ⊢
      cases hr : quotaRound species ideal q with
      | error e => rw [hr] at h; exact h
      | ok q' => rw [hr] at h; exact ih h m (by omega)
    · rw [quotaLoop_done hc] at h ⊢; exact h

/-- When the quota loop ends normally there is an identity for every site. -/
theorem quotaLoop_spec {species : List Val} {ideal : Dict Val K} (hid : HasQuotas species ideal) {num : ℤ} (fuel : ℕ) {q q' : Quota} (h : QInv species ideal q)
    (hl : q.ids.length ≤ num.toNat) (hr : quotaLoop species ideal num fuel q = some (.ok q')) :
    QInv species ideal q' ∧ q'.ids.length = num.toNat := by
  induction fuel generalizing q with
  | zero =>
    unfold quotaLoop at hr
    split_ifs at hr with hc
    injection hr with hr; injection hr with hr; subst hr
    exact ⟨h, by omega⟩
  | succ fuel ih =>
    by_cases hc : (q.ids.length : ℤ) < num
    · rw [quotaLoop, if_pos hc] at hr
      by_cases hne : species = []
      · subst hne
        simp [quotaRound] at hr
      · obtain ⟨p, x, q1, -, -, h3, h4, -, h6, h7⟩ := quotaRound_spec hid h hne
        rw [h3] at hr
        refine ih h4 ?_ hr
        by_cases hs : (q.ids.count p : K) < x
        · rw [h6 hs, List.length_append, List.length_singleton]; omega
        · rw [h7 hs]; exact hl
    · rw [quotaLoop_done hc] at hr
      injection hr with hr; injection hr with hr; subst hr
      exact ⟨h, by omega⟩

theorem sum_count {l species : List Val} (hn : species.Nodup) (h : ∀ p ∈ l, p ∈ species) : (species.map fun p => l.count p).sum = l.length := by
  induction l with
  | nil => simp
  | cons a l ih =>
    have h1 : ∀ p ∈ species, (a :: l).count p = l.count p + if p = a then 1 else 0 := by
      intro p _; rw [List.count_cons]; congr 1
      by_cases e : p = a
      · simp [e]
      · have e' : ¬ a = p := fun x => e x.symm
        simp [e, e']
    rw [List.map_congr_left h1, List.sum_map_add, ih fun p hp => h p (by simp [hp]), List.length_cons]
    congr 1
    have h2 : (species.map fun p => if p = a then 1 else 0).sum = species.count a := by
      clear h h1 ih hn
      induction species with
      | nil => simp
      | cons b species ih =>
        rw [List.map_cons, List.sum_cons, ih, List.count_cons, Nat.add_comm]
        by_cases e : b = a <;> simp [e]
    rw [h2, List.count_eq_one_of_mem hn (h a (by simp))]

theorem sum_share {nucAmts : Dict Val K} (num : ℤ) (h0 : (Dict.values nucAmts).sum ≠ 0) :
    ((Dict.values nucAmts).map (share nucAmts num)).sum = num := by
  unfold share
  generalize hT : (Dict.values nucAmts).sum = T at *
  have : ∀ l : List K, (l.map fun a => a / T * num).sum = l.sum / T * num := by
    intro l
    induction l with
    | nil => simp
    | cons a l ih => rw [List.map_cons, List.sum_cons, ih, List.sum_cons]; ring
  rw [this, hT, div_self h0, one_mul]

/-- The sum of the quotas. -/
def quotaSum (species : List Val) (ideal : Dict Val K) : K := (species.map fun p => (Dict.get? ideal p).getD 0).sum

theorem quotaSum_eq {nucAmts ideal : Dict Val K} (hw : Dict.WF nucAmts) (sh : K → K) (h : ∀ p, Dict.get? ideal p = (Dict.get? nucAmts p).map sh) :
    quotaSum (Dict.keys nucAmts) ideal = ((Dict.values nucAmts).map sh).sum := by
  unfold quotaSum
  rw [Dict.values, Dict.keys, List.map_map, List.map_map]
  congr 1
  refine List.map_congr_left fun pa hpa => ?_
  simp only [Function.comp, h, Dict.get?_of_mem hw hpa, Option.map_some, Option.getD_some]

theorem quotaSum_idealSites {nucAmts : Dict Val K} (hw : Dict.WF nucAmts) (num : ℤ) (h0 : (Dict.values nucAmts).sum ≠ 0) :
    quotaSum (Dict.keys nucAmts) (idealSites nucAmts num) = num := by
  rw [quotaSum_eq hw _ (get?_idealSites hw num), sum_share num h0]

/-- While identities are missing, some phase is below its quota, if the quotas add up to more than one less than the number of identities. -/
theorem below_share {species : List Val} {ideal : Dict Val K} (hid : HasQuotas species ideal) (hnd : species.Nodup) {num : ℤ}
    (h0 : (num : K) - 1 < quotaSum species ideal) {q : Quota} (h : QInv species ideal q)
    (hl : (q.ids.length : ℤ) < num) : ∃ (k : ℕ) (p : Val) (x : K), species[k]? = some p ∧ Dict.get? ideal p = some x ∧
      (q.ids.count p : K) < x := by
  by_contra hcon
  push Not at hcon
  have h1 : quotaSum species ideal ≤ (species.map fun p => ((q.ids.count p : ℕ) : K)).sum := by
    refine List.sum_le_sum fun p hp => ?_
    obtain ⟨k, hk⟩ := List.mem_iff_getElem?.1 hp
    obtain ⟨x, hx⟩ := hid p hp
    rw [hx, Option.getD_some]
    exact hcon k p x hk hx
  have h2 : (species.map fun p => ((q.ids.count p : ℕ) : K)).sum = ((q.ids.length : ℕ) : K) := by
    rw [← sum_count hnd h.mem, Nat.cast_list_sum, List.map_map]; rfl
  rw [h2] at h1
  have h3 : (num : K) - 1 < ((q.ids.length : ℤ) : K) := by exact_mod_cast lt_of_lt_of_le h0 h1
  have : num - 1 < (q.ids.length : ℤ) := by exact_mod_cast h3
  omega

/-- If the phase `k` positions ahead is below its quota, an identity is added within `k + 1` rounds. -/
theorem quota_progress {species : List Val} {ideal : Dict Val K} (hid : HasQuotas species ideal) (hne : species ≠ []) {num : ℤ} (k : ℕ) {q : Quota}
    (h : QInv species ideal q)
    (hl : (q.ids.length : ℤ) < num) {p : Val} {x : K} (hp : species[(q.calls + k) % species.length]? = some p)
    (hx : Dict.get? ideal p = some x) (hb : (q.ids.count p : K) < x) :
    ∃ j ≤ k, ∃ q', QInv species ideal q' ∧ q'.ids.length = q.ids.length + 1 ∧
      ∀ fuel, quotaLoop species ideal num (fuel + (j + 1)) q = quotaLoop species ideal num fuel q' := by
  induction k generalizing q with
  | zero =>
    obtain ⟨p1, x1, q1, h1, h2, h3, h4, h5, h6, -⟩ := quotaRound_spec hid h hne
    rw [Nat.add_zero, h1] at hp
    injection hp with hp; subst hp
    rw [h2] at hx; injection hx with hx; subst hx
    refine ⟨0, le_rfl, q1, h4, by rw [h6 hb]; simp, fun fuel => ?_⟩
    rw [show fuel + (0 + 1) = fuel + 1 from rfl, quotaLoop, if_pos hl, h3]
  | succ k ih =>
    obtain ⟨p1, x1, q1, h1, h2, h3, h4, h5, h6, h7⟩ := quotaRound_spec hid h hne
    by_cases hs : (q.ids.count p1 : K) < x1
    · refine ⟨0, by omega, q1, h4, by rw [h6 hs]; simp, fun fuel => ?_⟩
      rw [show fuel + (0 + 1) = fuel + 1 from rfl, quotaLoop, if_pos hl, h3]
    · have e := h7 hs
      obtain ⟨j, hj, q2, h8, h9, h10⟩ := ih h4 (by rw [e]; exact hl) (by rw [h5, show q.calls + 1 + k = q.calls + (k + 1) by ring]; exact hp)
        (by rw [e]; exact hb)
      refine ⟨j + 1, by omega, q2, h8, by rw [h9, e], fun fuel => ?_⟩
      rw [show fuel + (j + 1 + 1) = (fuel + (j + 1)) + 1 by ring, quotaLoop, if_pos hl, h3]
      exact h10 fuel

/-- The quota loop ends within (missing identities) x (phases) rounds. -/
theorem quotaLoop_terminates {species : List Val} {ideal : Dict Val K} (hid : HasQuotas species ideal) (hnd : species.Nodup) {num : ℤ}
    (h0 : (num : K) - 1 < quotaSum species ideal) (gap : ℕ) {q : Quota}
    (h : QInv species ideal q) (hl : num.toNat ≤ q.ids.length + gap) (fuel : ℕ) (hf : gap * species.length ≤ fuel) :
    ∃ q', quotaLoop species ideal num fuel q = some (.ok q') := by
  induction gap generalizing q fuel with
  | zero => exact ⟨q, quotaLoop_done (by omega) _⟩
  | succ gap ih =>
    by_cases hlt : (q.ids.length : ℤ) < num
    · obtain ⟨t, p, x, ht, hx, hb⟩ := below_share hid hnd h0 h hlt
      obtain ⟨htl, -⟩ := List.getElem?_eq_some_iff.1 ht
      have hne : species ≠ [] := List.length_pos_iff.1 (by omega)
      set m := species.length with hm
      have hcm := Nat.mod_lt q.calls (by omega : 0 < m)
      have hk : (q.calls + (t + (m - q.calls % m)) % m) % m = t := by
        have h1 : (q.calls + (t + (m - q.calls % m))) % m = t := by
          have := Nat.mod_add_div q.calls m
          have e : q.calls + (t + (m - q.calls % m)) = t + m * (q.calls / m + 1) := by
            rw [Nat.mul_add, mul_one]; omega
          rw [e, Nat.add_mul_mod_self_left, Nat.mod_eq_of_lt htl]
        rw [Nat.add_mod_mod]; exact h1
      have hkm := Nat.mod_lt (t + (m - q.calls % m)) (by omega : 0 < m)
      obtain ⟨j, hj, q', h1, h2, h3⟩ := quota_progress hid hne ((t + (m - q.calls % m)) % m) h hlt (by rw [← hm, hk]; exact ht) hx hb
      have hf' : gap * m + m ≤ fuel := by rw [← Nat.succ_mul]; exact hf
      obtain ⟨f', rfl⟩ : ∃ f', fuel = f' + (j + 1) := ⟨fuel - (j + 1), by omega⟩
      rw [h3 f']
      exact ih h1 (by omega) f' (by omega)
    · exact ⟨q, quotaLoop_done hlt _⟩

/-- If no quota is positive, the quota loop never ends. -/
theorem quotaLoop_hangs {species : List Val} {ideal : Dict Val K} (hid : HasQuotas species ideal) {num : ℤ} (hne : species ≠ [])
    (hz : ∀ p x, Dict.get? ideal p = some x → x ≤ 0) {q : Quota}
    (h : QInv species ideal q) (hl : (q.ids.length : ℤ) < num) (fuel : ℕ) :
    quotaLoop species ideal num fuel q = none := by
  induction fuel generalizing q with
  | zero => rw [quotaLoop, if_pos hl]
  | succ fuel ih =>
    obtain ⟨p, x, q1, h1, h2, h3, h4, h5, h6, h7⟩ := quotaRound_spec hid h hne
    have hs : ¬ (q.ids.count p : K) < x := not_lt.2 (le_trans (hz p x h2) (by positivity))
    rw [quotaLoop, if_pos hl, h3]
    exact ih h4 (by rw [h7 hs]; exact hl)

end GridSetup
end Pyl
