import Verif.Props.GrowthCount
import Verif.Props.DoubleAnalyzer
import Verif.Props.RandomNuclei
import Verif.Props.AsyncModels
/-
C132: how many sites of each phase the setups make.
-/
set_option autoImplicit false
set_option linter.unusedSectionVars false

namespace Pyl
open SimState Spec Analyzer
open Pyl.Lattice Pyl.Structure
variable {K : Type} [Field K] [LinearOrder K] [FloorRing K] [IsStrictOrderedRing K] {d : ℕ}

/-- A start state whose phases are all hashable can be analyzed, with and without its structure. -/
theorem startState_analyzable {S : Structure K d} {n : ℤ} (ht : IsTorus S fun _ => n) {s : SimState} (hst : StartState S s)
    (hh : ∀ i v, occ? s (.int i) = some v → v.hashable = true) {A : Option (Structure K d)} (hA : A = none ∨ A = some S) : Analyzable s ∧ Fits A s := by
  refine ⟨⟨hst.1, startState_knows hst, fun q hq => ?_⟩, fun S' e => ?_⟩
  · obtain ⟨v, hv⟩ := hst.2.2.2.1 q hq
    obtain ⟨i, hi, rfl⟩ := (hst.2.2.1 q).1 hq
    exact ⟨v, hv, hh i v hv⟩
  · rcases hA with rfl | rfl
    · cases e
    · cases e
      exact ⟨ht.reachable, hst.2.2.1⟩

/-- The number of sites is `n ^ d`. -/
theorem startState_size {S : Structure K d} {n : ℤ} (hsq : SquareGrid d (fun _ => n) S) {s : SimState} (hst : StartState S s) : s.size = n.toNat ^ d := by
  have ht := hsq.isTorus
  rw [← count_cells ht, SimState.size]
  simpa using (idsTo_of_sameSites ht.reachable hst.1 hst.2.2.1).length_eq

/-- C132: `setup_interface(n, p1, p2)` makes `n // 2` layers of `p1` and the rest `p2`, as `cell_count` counts them. -/
theorem C132_interface {G : GridSetup K d} (hG : StdSetup d G) (n : ℤ) (hn : 0 < n) (p1 p2 : Val) (h1 : p1.WF) (h2 : p2.WF) (k1 : p1.hashable = true)
    (k2 : p2.hashable = true) (hne : p1 ≠ p2) :
    ∃ sim, G.interface (.int n) p1 p2 = .ok sim ∧ ∀ A, A = none ∨ A = some sim.struct →
      cellCount A sim.state p1 = .ok ((n / 2).toNat * n.toNat ^ (d - 1)) ∧
      cellCount A sim.state p2 = .ok ((n - n / 2).toNat * n.toNat ^ (d - 1)) ∧
      (∀ v, v.hashable = true → v ≠ p1 → v ≠ p2 → cellCount A sim.state v = .ok 0) ∧
      cellFraction A sim.state p1 = .ok (((n / 2 : ℤ) : ℚ) / n) ∧
      (2 ∣ n → Dbl.cellFraction A sim.state p1 = .ok (1 / 2) ∧ Dbl.cellFraction A sim.state p2 = .ok (1 / 2)) := by
  obtain ⟨S, s, h3, hsq, hst, hsh⟩ := C64_interface hG n hn p1 p2 h1 h2
  refine ⟨⟨s, S⟩, h3, fun A hA => ?_⟩
  have ht := hsq.isTorus
  have hocc : ∀ i v, occ? s (.int i) = some v → v = p1 ∨ v = p2 := by
    intro i v hv
    have hi : Key.int i ∈ s.siteIds := by
      obtain ⟨p, hp, -⟩ := occ?_eq.1 hv
      exact mem_of_siteState hp
    obtain ⟨j, hj, e⟩ := (hst.2.2.1 _).1 hi
    injection e with e
    subst e
    obtain ⟨c, -, hc⟩ := ht.site j hj
    have := hsh j c hc
    rw [hv] at this
    injection this with this
    rw [this]
    beta_reduce
    split_ifs
    · exact .inl rfl
    · exact .inr rfl
  obtain ⟨hAn, hfit⟩ := startState_analyzable ht hst (fun i v hv => by rcases hocc i v hv with rfl | rfl <;> assumption) hA
  obtain ⟨e, rfl⟩ : ∃ e, d = e + 1 := ⟨d - 1, by have := StdSetup.dim hG; omega⟩
  have hz : (⟨0, StdSetup.dim hG⟩ : Fin (e + 1)) = 0 := rfl
  have hnn : (n.toNat : ℤ) = n := Int.toNat_of_nonneg hn.le
  -- the two slabs
  have slab : ∀ (a b : ℤ), 0 ≤ a → b ≤ n → ∀ p, (∀ i c, SiteHas S i c → (occ? s (.int i) = some p ↔ a ≤ c 0 ∧ c 0 < b)) →
      sitesWith s p = (b - a).toNat * n.toNat ^ e := by
    intro a b ha hb p hp
    rw [sitesWith_cells ht hst.1 hst.2.2.1 (F := Fintype.piFinset fun j : Fin (e + 1) => if j = 0 then Finset.Ico a b else Finset.Ico 0 n)
      (fun c hc j => ?_) fun i c hc => ?_, Fintype.card_piFinset, Fin.prod_univ_succ]
    · simp [Fin.succ_ne_zero]
    · have := Fintype.mem_piFinset.1 hc j
      by_cases hj : j = 0
      · rw [if_pos hj, Finset.mem_Ico] at this
        constructor <;> omega
      · rwa [if_neg hj, Finset.mem_Ico] at this
    · rw [hp i c hc, Fintype.mem_piFinset]
      constructor
      · intro h j
        by_cases hj : j = 0
        · rw [if_pos hj, Finset.mem_Ico, hj]; exact h
        · rw [if_neg hj, Finset.mem_Ico]; exact ht.inBox_of_has hc j
      · intro h
        simpa using h 0
  have c1 : sitesWith s p1 = (n / 2).toNat * n.toNat ^ e := by
    rw [slab 0 (n / 2) le_rfl (by omega) p1 fun i c hc => ?_, Int.sub_zero]
    rw [hsh i c hc]
    simp only [hz]
    have := (ht.inBox_of_has hc 0).1
    split_ifs with h
    · simp [h, this]
    · simp [h, hne.symm]
  have c2 : sitesWith s p2 = (n - n / 2).toNat * n.toNat ^ e := by
    rw [slab (n / 2) n (by omega) le_rfl p2 fun i c hc => ?_]
    rw [hsh i c hc]
    simp only [hz]
    have := (ht.inBox_of_has hc 0).2
    split_ifs with h
    · simp [hne, h]
    · simp only [true_iff]
      exact ⟨not_lt.1 h, this⟩
  have hsz : s.size = n.toNat ^ (e + 1) := startState_size hsq hst
  have hnp : 0 < n.toNat := by omega
  have h0 : s.size ≠ 0 := by rw [hsz]; positivity
  have hnq : (n.toNat : ℚ) = n := by exact_mod_cast congrArg (Int.cast (R := ℚ)) hnn
  have hn0 : (n : ℚ) ≠ 0 := by exact_mod_cast hn.ne'
  have frac : ∀ a : ℤ, 0 ≤ a → ((a.toNat * n.toNat ^ e : ℕ) : ℚ) / s.size = (a : ℚ) / n := by
    intro a ha
    have haq : (a.toNat : ℚ) = a := by exact_mod_cast congrArg (Int.cast (R := ℚ)) (Int.toNat_of_nonneg ha)
    rw [hsz]
    push_cast
    rw [haq, hnq, pow_succ]
    field_simp
  refine ⟨?_, ?_, fun v hv hv1 hv2 => ?_, ?_, fun h2n => ?_⟩
  · rw [C71_count A s hAn hfit p1 k1, c1]; rfl
  · rw [C71_count A s hAn hfit p2 k2, c2]; rfl
  · rw [C71_count A s hAn hfit v hv]
    refine congrArg _ (List.length_eq_zero_iff.2 (List.filter_eq_nil_iff.2 fun q hq => ?_))
    rw [decide_eq_true_eq]
    intro hqv
    obtain ⟨i, -, rfl⟩ := (hst.2.2.1 q).1 hq
    rcases hocc i v hqv with rfl | rfl
    · exact hv1 rfl
    · exact hv2 rfl
  · unfold cellFraction
    rw [C71_count A s hAn hfit p1 k1, ok_bind, if_neg h0, c1]
    exact congrArg _ (frac _ (by omega))
  · have h5 : ((n / 2 : ℤ) : ℚ) / n = 1 / 2 := by
      obtain ⟨k, rfl⟩ := h2n
      rw [Int.mul_ediv_cancel_left _ (by norm_num)]
      push_cast at hn0 ⊢
      have : (k : ℚ) ≠ 0 := fun h => hn0 (by rw [h]; ring)
      field_simp
    have h6 : ((n - n / 2 : ℤ) : ℚ) / n = 1 / 2 := by
      push_cast
      rw [sub_div, h5, div_self hn0]; norm_num
    have hfl : fl (1 / 2) = 1 / 2 := by
      have := fl_repr (m := 1) (by norm_num) (-1)
      norm_num at this ⊢
      exact this
    rw [dbl_cellFraction hAn hfit h0 k1, dbl_cellFraction hAn hfit h0 k2, c1, c2, frac _ (by omega), frac _ (by omega), h5, h6, hfl]
    exact ⟨rfl, rfl⟩

/-- C132: `setup_coords` with different cells, none of them listed for the background, makes as many sites of a phase as are listed for it. -/
theorem C132_coords {G : GridSetup K d} (hG : StdSetup d G) (n : ℤ) (hn : 0 < n) (bg : Val) (hbg : bg.WF) (hbh : bg.hashable = true)
    (m : Dict Val (List (Fin d → ℤ))) (hw : Dict.WF m) (hm : ∀ pl ∈ m, pl.1.WF ∧ pl.1.hashable = true ∧ pl.1 ≠ bg)
    (hdiff : (listed m).Pairwise fun a b => ¬ SameCell n a.2 b.2) :
    ∃ sim, G.coords (.int n) bg (m.map fun pl => (pl.1, pl.2.map intPoint)) = .ok sim ∧ ∀ A, A = none ∨ A = some sim.struct →
      (∀ pl ∈ m, cellCount A sim.state pl.1 = .ok pl.2.length) ∧
      cellCount A sim.state bg = .ok (n.toNat ^ d - (listed m).length) ∧ (listed m).length ≤ n.toNat ^ d := by
  classical
  obtain ⟨S, s, h1, hsq, hst, h3⟩ := C66_coords hG n hn bg hbg m fun pl h => (hm pl h).1
  refine ⟨⟨s, S⟩, h1, fun A hA => ?_⟩
  have ht := hsq.isTorus
  have hmemL : ∀ p x, (p, x) ∈ listed m ↔ ∃ l, (p, l) ∈ m ∧ x ∈ l := by
    intro p x
    simp only [listed, List.mem_flatMap, List.mem_map, Prod.mk.injEq]
    constructor
    · rintro ⟨pl, hpl, y, hy, rfl, rfl⟩
      exact ⟨pl.2, hpl, hy⟩
    · rintro ⟨l, hl, hx⟩
      exact ⟨(p, l), hl, x, hx, rfl, rfl⟩
  have hkey : ∀ pl ∈ m, ∀ l, (pl.1, l) ∈ m → l = pl.2 := fun pl h1 l h2 => by
    have e1 := Dict.get?_of_mem hw h1
    have e2 := Dict.get?_of_mem hw h2
    rw [e1] at e2
    exact (Option.some.inj e2).symm
  have sym : ∀ {a b : Fin d → ℤ}, SameCell n a b → SameCell n b a := fun h j => by
    have := h j
    rw [← Int.dvd_neg] at this
    simpa using this
  have trans : ∀ {a b c : Fin d → ℤ}, SameCell n a b → SameCell n b c → SameCell n a c := fun h h' j => by
    have := Int.dvd_add (h j) (h' j)
    simpa using this
  have huniq : ∀ a ∈ listed m, ∀ b ∈ listed m, SameCell n a.2 b.2 → a = b := fun a ha b hb hab => by
    by_contra hne
    have : Std.Symm fun a b : Val × (Fin d → ℤ) => ¬ SameCell n a.2 b.2 := ⟨fun _ _ h h' => h (sym h')⟩
    exact hdiff.forall ha hb hne hab
  have hphase : ∀ i c, SiteHas S i c → ∀ p, p ≠ bg → (occ? s (.int i) = some p ↔ ∃ x, (p, x) ∈ listed m ∧ SameCell n x c) := by
    intro i c hc p hp
    obtain ⟨v, hv, h4⟩ := h3 i c hc
    rw [hv, Option.some.injEq]
    rcases h4 with ⟨l₁, p', x', l₂, e, h5, -, rfl⟩ | ⟨h5, rfl⟩
    · have hmem : (v, x') ∈ listed m := by rw [e]; simp
      constructor
      · rintro rfl
        exact ⟨x', hmem, h5⟩
      · rintro ⟨x, hx, hxc⟩
        have := huniq _ hmem _ hx (trans h5 (sym hxc))
        exact congrArg Prod.fst this
    · constructor
      · rintro rfl; exact absurd rfl hp
      · rintro ⟨x, hx, hxc⟩
        exact absurd hxc (h5 _ hx)
  have hback : ∀ i c, SiteHas S i c → (occ? s (.int i) = some bg ↔ ∀ q ∈ listed m, ¬ SameCell n q.2 c) := by
    intro i c hc
    obtain ⟨v, hv, h4⟩ := h3 i c hc
    rw [hv, Option.some.injEq]
    rcases h4 with ⟨l₁, p', x', l₂, e, h5, -, rfl⟩ | ⟨h5, rfl⟩
    · have hmem : (v, x') ∈ listed m := by rw [e]; simp
      obtain ⟨l, hl, -⟩ := (hmemL _ _).1 hmem
      constructor
      · rintro rfl; exact absurd rfl (hm _ hl).2.2
      · intro h; exact absurd h5 (h _ hmem)
    · exact ⟨fun _ => h5, fun _ => rfl⟩
  have hh : ∀ i v, occ? s (.int i) = some v → v.hashable = true := by
    intro i v hv
    by_cases hvb : v = bg
    · rw [hvb]; exact hbh
    have hi : Key.int i ∈ s.siteIds := by
      obtain ⟨p, hp, -⟩ := occ?_eq.1 hv
      exact mem_of_siteState hp
    obtain ⟨j, hj, e⟩ := (hst.2.2.1 _).1 hi
    injection e with e
    subst e
    obtain ⟨c, -, hc⟩ := ht.site j hj
    obtain ⟨x, hx, -⟩ := (hphase j c hc v hvb).1 hv
    obtain ⟨l, hl, -⟩ := (hmemL _ _).1 hx
    exact (hm _ hl).2.1
  obtain ⟨hAn, hfit⟩ := startState_analyzable ht hst hh hA
  let w : (Fin d → ℤ) → (Fin d → ℤ) := fun x j => x j % n
  have hw1 : ∀ x c, InBox (fun _ => n) c → (w x = c ↔ SameCell n x c) := by
    intro x c hc
    constructor
    · rintro rfl j
      exact Int.dvd_self_sub_emod
    · intro h
      funext j
      have h6 := Int.emod_eq_emod_iff_emod_sub_eq_zero.2 (Int.emod_eq_zero_of_dvd (h j))
      show x j % n = c j
      rw [h6, Int.emod_eq_of_lt (hc j).1 (hc j).2]
  have hw2 : ∀ x, InBox (fun _ => n) (w x) := fun x => ht.inBox_mod x
  have hw3 : ∀ x y, w x = w y → SameCell n x y := fun x y h => trans ((hw1 x _ (hw2 y)).1 h) (sym ((hw1 y _ (hw2 y)).1 rfl))
  have card : ∀ l : List (Val × (Fin d → ℤ)), l.Sublist (listed m) → (l.map fun q => w q.2).toFinset.card = l.length := by
    intro l hl
    rw [List.toFinset_card_of_nodup, List.length_map]
    refine List.pairwise_map.2 ((hdiff.sublist hl).imp fun {a b} h e => h (hw3 _ _ e))
  refine ⟨fun pl hpl => ?_, ?_, ?_⟩
  · rw [C71_count A s hAn hfit pl.1 (hm pl hpl).2.1]
    refine congrArg _ ?_
    have hsub : (pl.2.map fun c => (pl.1, c)).Sublist (listed m) := by
      obtain ⟨a, b, rfl⟩ := List.append_of_mem hpl
      simp only [listed, List.flatMap_append, List.flatMap_cons]
      exact (List.sublist_append_left _ _).trans (List.sublist_append_right _ _)
    have := card _ hsub
    rw [List.length_map] at this
    rw [← this]
    refine sitesWith_cells ht hst.1 hst.2.2.1 (fun c hc => ?_) fun i c hc => ?_
    · simp only [List.mem_toFinset, List.mem_map] at hc
      obtain ⟨q, -, rfl⟩ := hc
      exact hw2 _
    · rw [hphase i c hc _ (hm pl hpl).2.2]
      simp only [List.mem_toFinset, List.mem_map, exists_exists_and_eq_and]
      constructor
      · rintro ⟨x, hx, hxc⟩
        obtain ⟨l, hl, hxl⟩ := (hmemL _ _).1 hx
        rw [hkey pl hpl l hl] at hxl
        exact ⟨x, hxl, (hw1 x c (ht.inBox_of_has hc)).2 hxc⟩
      · rintro ⟨x, hx, e⟩
        exact ⟨x, (hmemL _ _).2 ⟨pl.2, hpl, hx⟩, (hw1 x c (ht.inBox_of_has hc)).1 e⟩
  · rw [C71_count A s hAn hfit bg hbh]
    refine congrArg _ ?_
    have hc0 := card _ (List.Sublist.refl _)
    have hbox : ((listed m).map fun q => w q.2).toFinset ⊆ Fintype.piFinset fun _ : Fin d => Finset.Ico 0 n := fun c hc => by
      simp only [List.mem_toFinset, List.mem_map] at hc
      obtain ⟨q, -, rfl⟩ := hc
      simpa [InBox] using hw2 q.2
    rw [sitesWith_cells ht hst.1 hst.2.2.1 (F := (Fintype.piFinset fun _ : Fin d => Finset.Ico 0 n) \ ((listed m).map fun q => w q.2).toFinset)
      (fun c hc => by simpa [InBox] using (Finset.mem_sdiff.1 hc).1) fun i c hc => ?_, Finset.card_sdiff_of_subset hbox, hc0]
    · simp
    · rw [hback i c hc, Finset.mem_sdiff]
      have hb := ht.inBox_of_has hc
      simp only [List.mem_toFinset, List.mem_map, not_exists, not_and]
      constructor
      · intro h
        refine ⟨by simpa [InBox] using hb, fun q hq e => h q hq ((hw1 _ c hb).1 e)⟩
      · rintro ⟨-, h⟩ q hq hqc
        exact h q hq ((hw1 _ c hb).2 hqc)
  · have hc0 := card _ (List.Sublist.refl _)
    rw [← hc0]
    have hbox : ((listed m).map fun q => w q.2).toFinset ⊆ Fintype.piFinset fun _ : Fin d => Finset.Ico 0 n := fun c hc => by
      simp only [List.mem_toFinset, List.mem_map] at hc
      obtain ⟨q, -, rfl⟩ := hc
      simpa [InBox] using hw2 q.2
    simpa using Finset.card_le_card hbox

/-- The project's test of the analyzer: an interface on a 4 by 4 grid has 8 sites of each phase and none of a third one. -/
example : ∃ sim, (gridSetup2 : GridSetup ℚ 2).interface (.int 4) (.str "A") (.str "B") = .ok sim ∧
    cellCount (some sim.struct) sim.state (.str "A") = .ok 8 ∧ cellCount (some sim.struct) sim.state (.str "B") = .ok 8 ∧
    cellCount (some sim.struct) sim.state (.str "C") = .ok 0 := by
  obtain ⟨sim, h1, h2⟩ := C132_interface (K := ℚ) .two 4 (by norm_num) (.str "A") (.str "B") (.str _) (.str _) rfl rfl (by simp)
  obtain ⟨h3, h4, h5, -⟩ := h2 _ (.inr rfl)
  exact ⟨sim, h1, h3, h4, h5 _ rfl (by simp) (by simp)⟩

/-- Two cells of one phase and one of another on a 4 by 4 grid; one of the coordinates wraps. -/
example : ∃ sim, (gridSetup2 : GridSetup ℚ 2).coords (.int 4) (.str "A") [(.str "B", [intPoint ![0, 0], intPoint ![5, -1]]), (.str "C", [intPoint ![1, 1]])] = .ok sim ∧
    cellCount (some sim.struct) sim.state (.str "B") = .ok 2 ∧ cellCount (some sim.struct) sim.state (.str "C") = .ok 1 ∧
    cellCount (some sim.struct) sim.state (.str "A") = .ok 13 := by
  obtain ⟨sim, h1, h2⟩ := C132_coords (K := ℚ) .two 4 (by norm_num) (.str "A") (.str _) rfl [(.str "B", [![0, 0], ![5, -1]]), (.str "C", [![1, 1]])]
    (by unfold Dict.WF; decide) (by rintro pl (_ | ⟨_, _ | ⟨_, ⟨⟩⟩⟩) <;> exact ⟨.str _, rfl, by simp⟩) (by unfold SameCell; decide)
  obtain ⟨h3, h4, -⟩ := h2 _ (.inr rfl)
  exact ⟨sim, h1, h3 (.str "B", [![0, 0], ![5, -1]]) (by simp), h3 (.str "C", [![1, 1]]) (by simp), h4⟩

end Pyl
