import Verif.Lemmas.HyperLaw
import Verif.Spec.GridPosterior
import Verif.Spec.Posterior

/-!
# Repeated transitions of hyperparameters (helpers)
-/

namespace Cgpm2
open Spec MeasureTheory

variable {μ : Measure Draw} [IsProbabilityMeasure μ] {k : Prim.Kind} {grids : Dict String (List ℝ)} {ps : List Prim}

/-! ## Counting -/

theorem count_cells (grids : Dict String (List ℝ)) (c : Dict String ℝ)
    (hc : c ∈ cellsOf grids) : haveI := Classical.decEq (Dict String ℝ); List.count c (cellsOf grids) = gridCount grids c := by
  classical
  rw [mem_cells] at hc
  unfold gridCount
  induction hc with
  | nil => simp [cellsOf]
  | @cons a b as bs hab h ih =>
    obtain ⟨n, grid⟩ := a
    obtain ⟨n', x⟩ := b
    obtain ⟨h1, h2⟩ := hab
    dsimp only at h1 h2
    subst h1
    rw [List.zip_cons_cons, List.map_cons, List.prod_cons, ← ih]
    rw [show cellsOf ((n, grid) :: as) = grid.flatMap fun x => (cellsOf as).map fun cell => (n, x) :: cell from rfl,
      List.count_flatMap]
    dsimp only
    have e : ∀ y, List.count ((n, x) :: bs) ((cellsOf as).map fun cell => (n, y) :: cell) =
        if y = x then List.count bs (cellsOf as) else 0 := by
      intro y
      split
      · rename_i e
        subst e
        exact List.count_map_of_injective _ (fun cell => (n, y) :: cell) (fun a b h => by simpa using h) _
      · rename_i hne
        rw [List.count_eq_zero]
        intro hm
        obtain ⟨_, _, he⟩ := List.mem_map.1 hm
        rw [List.cons.injEq, Prod.mk.injEq] at he
        exact hne he.1.2
    have e2 : (List.count ((n, x) :: bs) ∘ fun y => (cellsOf as).map fun cell => (n, y) :: cell) =
        fun y => if y = x then List.count bs (cellsOf as) else 0 := funext e
    rw [e2]
    clear * -
    induction grid with
    | nil => simp
    | cons y grid ih =>
      rw [List.map_cons, List.sum_cons, ih, List.count_cons]
      by_cases h : y = x
      · simp [h]; ring
      · simp [h]

theorem sum_cells {cells : List (Dict String ℝ)} (hnd : cells.Nodup) (hm : ∀ c, c ∈ cells ↔ c ∈ cellsOf grids)
    (f : Dict String ℝ → ENNReal) :
    ((cellsOf grids).map f).sum = (cells.map fun c => gridCount grids c * f c).sum := by
  classical
  rw [Finset.sum_list_map_count, ← List.sum_toFinset _ hnd]
  have : (cellsOf grids).toFinset = cells.toFinset := by
    ext c
    rw [List.mem_toFinset, List.mem_toFinset, hm]
  rw [this]
  refine Finset.sum_congr rfl fun c hc => ?_
  rw [List.mem_toFinset, hm] at hc
  rw [nsmul_eq_mul]
  congr 2
  have := count_cells grids c hc
  convert this

theorem gridCount_ne {c : Dict String ℝ} (hc : c ∈ cellsOf grids) : gridCount grids c ≠ 0 := by
  classical
  have := count_cells grids c hc
  rw [← this]
  exact (List.count_pos_iff.2 hc).ne'

theorem keeps_cells {cells : List (Dict String ℝ)} (hnd : cells.Nodup) (hm : ∀ c, c ∈ cells ↔ c ∈ cellsOf grids)
    {e : Dict String ℝ → ENNReal} {K : Dict String ℝ → (Dict String ℝ → ENNReal) → ENNReal}
    (h : Keeps (· ∈ cellsOf grids) Eq (cellsOf grids) e K) :
    Keeps (· ∈ cells) Eq cells (fun c => gridCount grids c * e c) K := by
  intro F hF
  have := h F fun a b _ _ e => by rw [e]
  rw [sum_cells hnd hm, sum_cells hnd hm] at this
  simpa only [mul_assoc] using this

/-! ## The steps, as moves between the points of the grid -/

theorem classes_eq {cells : List (Dict String ℝ)} (hnd : cells.Nodup) : Classes (· ∈ cells) Eq cells :=
  ⟨fun _ => rfl, fun _ _ => Eq.symm, fun _ _ _ => Eq.trans, fun _ h => h, hnd.imp fun h => h, fun u hu => ⟨u, hu, rfl⟩⟩

theorem classFn_eq {S : Type} {G : S → Prop} (F : S → ENNReal) : ClassFn G Eq F := fun _ _ _ _ e => by rw [e]

theorem gridKernel_linear {cells : List (Dict String ℝ)} (hnd : cells.Nodup) (hm : ∀ c, c ∈ cells ↔ c ∈ cellsOf grids)
    (e : Dict String ℝ → ENNReal) (n : String) : Linear (· ∈ cells) Eq cells (gridKernel e grids n) := by
  intro c hc F hF
  have hcl := classes_eq hnd
  have hsum : ∀ x ∈ cells, F x = (cells.map fun y => ind Eq y x * F y).sum := fun x hx => Linear.id hcl x hx F hF
  unfold gridKernel
  rcases hg : Dict.get? grids n with _ | grid
  · exact hsum c hc
  dsimp only
  rw [List.map_congr_left (g := fun v => (cells.map fun y => e (Dict.set c n v) * ind Eq y (Dict.set c n v) * F y).sum)
    fun v hv => ?_]
  · rw [sum_list_comm, ENNReal.div_eq_inv_mul, ← List.sum_map_mul_left]
    congr 1
    refine List.map_congr_left fun y _ => ?_
    rw [List.sum_map_mul_right, ENNReal.div_eq_inv_mul, mul_assoc]
  · rw [hsum (Dict.set c n v) ((hm _).2 (cells_set hg hv ((hm c).1 hc))), ← List.sum_map_mul_left]
    simp only [mul_assoc]

theorem gridKernel_stoch {e : Dict String ℝ → ENNReal} (hp : ∀ c, e c ≠ 0 ∧ e c ≠ ⊤) (n : String) :
    Stoch (· ∈ cellsOf grids) (gridKernel e grids n) := by
  intro c hc
  unfold gridKernel
  rcases hg : Dict.get? grids n with _ | grid
  · rfl
  dsimp only
  simp only [mul_one]
  obtain ⟨v, hv, -⟩ := cells_get hg hc
  exact ENNReal.div_self (sum_ne_zero hv (hp _).1) (sum_ne_top fun v _ => (hp _).2)

theorem gridKernel_reach {e : Dict String ℝ → ENNReal} (hp : ∀ c, e c ≠ 0 ∧ e c ≠ ⊤) {n : String} {grid : List ℝ}
    (hg : Dict.get? grids n = some grid) {v : ℝ} (hv : v ∈ grid) {c : Dict String ℝ} {F : Dict String ℝ → ENNReal}
    (hF : F (Dict.set c n v) ≠ 0) : gridKernel e grids n c F ≠ 0 := by
  unfold gridKernel
  rw [hg]
  dsimp only
  rw [Ne, ENNReal.div_eq_zero_iff, not_or]
  exact ⟨sum_ne_zero hv (mul_ne_zero (hp _).1 hF), sum_ne_top fun v _ => (hp _).2⟩

theorem cells_keys {c : Dict String ℝ} (hc : c ∈ cellsOf grids) : Dict.keys c = Dict.keys grids := by
  rw [mem_cells] at hc
  unfold Dict.keys
  induction hc with
  | nil => rfl
  | cons hab _ ih => rw [List.map_cons, List.map_cons, hab.1, ih]

theorem grids_reach {e : Dict String ℝ → ENNReal} (hp : ∀ c, e c ≠ 0 ∧ e c ≠ ⊤) (nd : (Dict.keys grids).Nodup)
    {w : Dict String ℝ} (hw : w ∈ cellsOf grids) {ns : List String} (hns : ∀ n ∈ ns, n ∈ Dict.keys grids) {c : Dict String ℝ}
    (hc : c ∈ cellsOf grids) (hd : ∀ n ∈ Dict.keys grids, n ∉ ns → Dict.get? c n = Dict.get? w n) :
    kernels (gridKernel e grids) ns c (ind Eq w) ≠ 0 := by
  induction ns generalizing c with
  | nil =>
    have : c = w := Dict.ext_keys ((cells_keys hc).trans (cells_keys hw).symm) (by rw [cells_keys hc]; exact nd) fun n hn =>
      hd n (by rwa [cells_keys hc] at hn) (by simp)
    change ind Eq w c ≠ 0
    simp [ind, this]
  | cons n ns ih =>
    have hn := hns n List.mem_cons_self
    obtain ⟨grid, hg⟩ : ∃ grid, Dict.get? grids n = some grid := by
      rcases h : Dict.get? grids n with _ | grid
      · exact absurd hn ((Dict.get?_eq_none_iff _ _).1 h)
      · exact ⟨grid, rfl⟩
    obtain ⟨v, hv, hwv⟩ := cells_get hg hw
    refine gridKernel_reach hp hg hv (ih (fun m hm => hns m (List.mem_cons_of_mem _ hm)) (cells_set hg hv hc) fun m hm hmn => ?_)
    rw [Dict.get?_set]
    by_cases e : n = m
    · subst e
      rw [if_pos rfl, hwv]
    · rw [if_neg e]
      exact hd m hm (by rw [List.mem_cons, not_or]; exact ⟨fun h => e h.symm, hmn⟩)

theorem gridKernel_some {e : Dict String ℝ → ENNReal} {n : String} {grid : List ℝ} (hg : Dict.get? grids n = some grid)
    {c : Dict String ℝ} {F : Dict String ℝ → ENNReal} : gridKernel e grids n c F =
      (grid.map fun v => e (Dict.set c n v) * F (Dict.set c n v)).sum / (grid.map fun v => e (Dict.set c n v)).sum := by
  unfold gridKernel
  rw [hg]

/-- `transition_hypers`, repeated, approaches the weights. -/
theorem hypers_converge {cells : List (Dict String ℝ)} (hnd : cells.Nodup) (hm : ∀ c, c ∈ cells ↔ c ∈ cellsOf grids)
    (nd : (Dict.keys grids).Nodup) (ps : List Prim) :
    ∃ ρ : ℝ, 0 ≤ ρ ∧ ρ < 1 ∧ ∀ n c w, c ∈ cells → w ∈ cells →
      |(iterate (hypersKernel ps grids (Dict.keys grids)) n c (ind Eq w)).toReal -
        (gridCount grids w * weight ps w / (cells.map fun c => gridCount grids c * weight ps c).sum).toReal| ≤ ρ ^ n := by
  have hcl := classes_eq hnd
  have hlin : ∀ n, Linear (· ∈ cells) Eq cells (gridKernel (weight ps) grids n) := gridKernel_linear hnd hm _
  have hmem : (· ∈ cells) = (· ∈ cellsOf grids) := funext fun c => propext (hm c)
  have hsto : ∀ n, Stoch (· ∈ cells) (gridKernel (weight ps) grids n) := fun n => by
    rw [hmem]
    exact gridKernel_stoch (weight_ne ps) n
  refine converges (G := (· ∈ cells)) (π := fun c => gridCount grids c * weight ps c) hcl
    (Linear.overOrders (K := fun ns => kernels (gridKernel (weight ps) grids) ns) fun ns _ =>
      (Linear.kernels hcl (fun n _ => hlin n) fun n _ F _ => classFn_eq _).1)
    (fun F _ => classFn_eq _)
    (Stoch.overOrders (K := fun ns => kernels (gridKernel (weight ps) grids) ns) fun ns _ =>
      Stoch.kernels hcl (fun n _ => hlin n) fun n _ => hsto n)
    (keeps_cells hnd hm (by have := hypers_keeps ps grids (Dict.keys grids); rwa [hyperCells_eq] at this))
    (fun c hc => mul_ne_zero (by exact_mod_cast gridCount_ne ((hm c).1 hc)) (weight_ne ps c).1)
    (fun c _ => ENNReal.mul_ne_top (ENNReal.natCast_ne_top _) (weight_ne ps c).2) fun c hc w hw => ?_
  have h : ∀ ns : List String, ns.Perm (Dict.keys grids) → kernels (gridKernel (weight ps) grids) ns c (ind Eq w) ≠ 0 :=
    fun ns hns => grids_reach (weight_ne ps) nd ((hm w).1 hw) (fun n hn => hns.mem_iff.1 hn) ((hm c).1 hc)
      fun n hn hn' => absurd (hns.mem_iff.2 hn) hn'
  unfold hypersKernel
  rcases hlen : (Dict.keys grids).length with _ | n
  · exact h _ (.refl _)
  · exact overOrders_ne_zero hlen h

/-! ## The calls -/

theorem hypers_kernel (hμ : IsDraw μ) (hn : k ≠ .normalUC) (hne : ps ≠ []) (hp : AllOf k ps)
    (hnames : Dict.keys grids = hyperNames k) (hg : ∀ n ∈ hyperNames k, LegalGrid grids n) {c : Dict String ℝ} (hc : FullHypers k c)
    {Φ : Dict String ℝ → List Prim → Set Rng} {F : Dict String ℝ → ENNReal}
    (hΦ : ∀ h', FullHypers k h' → MeasurableSet (Φ h' (ps.map (Prim.withHypers h'))) ∧
      Pr μ (Φ h' (ps.map (Prim.withHypers h'))) = F h') :
    MeasurableSet {g | ∃ h' ps' g', transitionHypers grids (ps.map (Prim.withHypers c), g) = (.ok h', (ps', g')) ∧ g' ∈ Φ h' ps'} ∧
    Pr μ {g | ∃ h' ps' g', transitionHypers grids (ps.map (Prim.withHypers c), g) = (.ok h', (ps', g')) ∧ g' ∈ Φ h' ps'} =
      hypersKernel ps grids (Dict.keys grids) c F := by
  have hsame : SameList ps (ps.map (Prim.withHypers c)) := sameList_with ps c
  have hmap : ∀ h', HypersOk k h' → (ps.map (Prim.withHypers c)).map (Prim.withHypers h') = ps.map (Prim.withHypers h') :=
    fun h' hk => map_withHypers_of_same hn hsame hp hk
  have := hypers_law hμ hn (hp.with c) hg (h := c) (Φ := Φ) (F := F) (by
    cases ps with
    | nil => exact absurd rfl hne
    | cons p ps =>
      have hpk := (hp p List.mem_cons_self).2
      simp only [List.map_cons, List.head?_cons, Option.map_some]
      rw [withHypers_get (by rw [hpk]; exact hn) (by rw [hpk]; exact hc.1)
        (by rw [hc.2, hpk])]) fun h' hk => by rw [hmap h' hk.1]; exact hΦ h' hk
  refine ⟨this.1, this.2.trans ?_⟩
  unfold hypersKernel
  rw [hnames]
  have hw : ∀ d, HypersOk k d → weight (ps.map (Prim.withHypers c)) d = weight ps d := fun d hd => by
    unfold weight
    rw [total_same hsame hp hd]
  refine overOrders_congr _ _ fun ns hns => ?_
  have hkk : ∀ ns : List String, (∀ n ∈ ns, n ∈ hyperNames k) → ∀ d, HypersOk k d →
      kernels (gridKernel (weight (ps.map (Prim.withHypers c))) grids) ns d F = kernels (gridKernel (weight ps) grids) ns d F := by
    intro ns
    induction ns with
    | nil => exact fun _ _ _ => rfl
    | cons n ns ih =>
      intro hns d hd
      obtain ⟨grid, hgn, -, hl⟩ := hg n (hns n List.mem_cons_self)
      change gridKernel _ grids n d _ = gridKernel _ grids n d _
      rw [gridKernel_some hgn, gridKernel_some hgn]
      have h1 : ∀ v ∈ grid, HypersOk k (Dict.set d n v) := fun v hv => hypersOk_set hd (hl v hv)
      congr 2
      · exact List.map_congr_left fun v hv => by rw [hw _ (h1 v hv), ih (fun m hm => hns m (List.mem_cons_of_mem _ hm)) _ (h1 v hv)]
      · exact List.map_congr_left fun v hv => hw _ (h1 v hv)
  exact hkk ns (fun n hn => hns.mem_iff.1 hn) c hc.1

/-- What a successful call leaves. -/
theorem hypers_objects (hn : k ≠ .normalUC) (hp : AllOf k ps) (hg : ∀ n ∈ hyperNames k, LegalGrid grids n)
    {c : Dict String ℝ} (hne : ps ≠ []) {g : Rng} {h' : Dict String ℝ} {ps' : List Prim} {g' : Rng}
    (e : transitionHypers grids (ps.map (Prim.withHypers c), g) = (.ok h', (ps', g'))) : ps' = ps.map (Prim.withHypers h') := by
  obtain ⟨h, g1, hok, e1⟩ := transitionHypers_run hn (hp.with c) (by simpa using hne) hg g
  rw [e] at e1
  cases e1
  exact map_withHypers_of_same hn (sameList_with ps c) hp hok

theorem repeat_law (hμ : IsDraw μ) (hn : k ≠ .normalUC) (hne : ps ≠ []) (hp : AllOf k ps)
    (hnames : Dict.keys grids = hyperNames k) (hg : ∀ n ∈ hyperNames k, LegalGrid grids n) {Φ : List Prim → Set Rng}
    {F : Dict String ℝ → ENNReal} (hΦ : ∀ h', FullHypers k h' → MeasurableSet (Φ (ps.map (Prim.withHypers h'))) ∧
      Pr μ (Φ (ps.map (Prim.withHypers h'))) = F h') (n : Nat) {c : Dict String ℝ} (hc : FullHypers k c) :
    MeasurableSet (Ends (repeatCall (do let _ ← transitionHypers grids; pure ()) n) (ps.map (Prim.withHypers c)) Φ) ∧
    Pr μ (Ends (repeatCall (do let _ ← transitionHypers grids; pure ()) n) (ps.map (Prim.withHypers c)) Φ) =
      iterate (hypersKernel ps grids (Dict.keys grids)) n c F := by
  induction n generalizing c with
  | zero =>
    have : Ends (repeatCall (do let _ ← transitionHypers grids; pure ()) 0) (ps.map (Prim.withHypers c)) Φ =
        Φ (ps.map (Prim.withHypers c)) := by
      ext g
      constructor
      · rintro ⟨_, _, _, h, h'⟩
        cases h
        exact h'
      · exact fun h => ⟨_, _, _, rfl, h⟩
    rw [this]
    exact hΦ c hc
  | succ n ih =>
    have e : Ends (repeatCall (do let _ ← transitionHypers grids; pure ()) (n + 1)) (ps.map (Prim.withHypers c)) Φ =
        {g | ∃ h' ps' g', transitionHypers grids (ps.map (Prim.withHypers c), g) = (.ok h', (ps', g')) ∧ g' ∈
          Ends (repeatCall (do let _ ← transitionHypers grids; pure ()) n) ps' Φ} := by
      rw [show repeatCall (do let _ ← transitionHypers grids; pure ()) (n + 1) =
        ((do let _ ← transitionHypers grids; pure ()) >>= fun _ => repeatCall (do let _ ← transitionHypers grids; pure ()) n)
        from rfl, ends_bind _ _ _ fun _ => rfl]
      rw [ends_bind _ _ (pure ()) fun _ => rfl]
      have : ∀ s, Ends (pure () : Py (List Prim × Rng) Unit) s
          (fun s' => Ends (repeatCall (do let _ ← transitionHypers grids; pure ()) n) s' Φ) =
          Ends (repeatCall (do let _ ← transitionHypers grids; pure ()) n) s Φ := by
        intro s
        ext g
        constructor
        · rintro ⟨_, _, _, h, h'⟩
          cases h
          exact h'
        · exact fun h => ⟨_, _, _, rfl, h⟩
      simp only [this]
      rfl
    rw [e]
    exact hypers_kernel hμ hn hne hp hnames hg hc (Φ := fun _ ps' => Ends (repeatCall (do let _ ← transitionHypers grids; pure ()) n) ps' Φ)
      fun h' hh => ih hh

end Cgpm2
