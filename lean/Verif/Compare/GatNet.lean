import Mathlib.Analysis.SpecialFunctions.Exp
import Mathlib.Algebra.BigOperators.Group.Finset.Basic
import Mathlib.Algebra.BigOperators.Field
import Mathlib.Algebra.Order.BigOperators.Group.Finset
import Mathlib.Data.List.Induction
import Mathlib.Tactic.Ring
import Mathlib.Tactic.FieldSimp
import Mathlib.Tactic.Linarith

/-!
# The graph attention network (`gensit/learning_models/GraphAttentionNetwork.py:400-646`, `gensit/utils/misc_utils.py:1568-1612`) (C137)

Numbers are real. `V` are the regions, `ι` and `κ` the features of a layer's input and output.
-/

namespace GeNSIT

set_option linter.unusedSectionVars false

open Finset

variable {V V' ι κ : Type} [Fintype V] [DecidableEq V] [Fintype V'] [DecidableEq V'] [Fintype ι] [Fintype κ]

/-- The graph of the regions (`gensit/experiments.py:3450-3461`): which regions are adjacent, and the costs. -/
structure RegionGraph (V : Type) where
  adjacent : V → V → Bool
  cost : V → V → ℝ

open Classical in
/-- The edges (`experiments.py:3450-3454`, `misc_utils.py:1581-1593`): the places where the matrix, which has the cost of adjacent regions and zero
for others, is not zero. The edge goes from the row to the column. -/
noncomputable def RegionGraph.edge (g : RegionGraph V) (u v : V) : Bool := decide ((if g.adjacent u v then g.cost u v else 0) ≠ 0)

/-- The parameters of a layer (`GraphAttentionNetwork.py:505-520`, `574-590`): the three linear maps, the attention vector in its three parts, and the
two weights of which `reduce_func` takes the softmax. -/
structure GatParams (ι κ : Type) where
  fc0 : ℝ
  fc1 : κ → ι → ℝ
  fc2 : κ → ι → ℝ
  attnSrc : κ → ℝ
  attnDst : κ → ℝ
  attnEdge : ℝ
  weights : ℝ × ℝ

/-- A linear map without bias. -/
def linearMap (m : κ → ι → ℝ) (x : ι → ℝ) : κ → ℝ := fun k => ∑ i, m k i * x i

/-- `F.leaky_relu` with its default slope. -/
noncomputable def leakyRelu (x : ℝ) : ℝ := if 0 ≤ x then x else 0.01 * x

/-- `edge_feat_func` and `edge_attention` (`GraphAttentionNetwork.py:522-532`). -/
noncomputable def attentionScore (p : GatParams ι κ) (cost : ℝ) (src dst : κ → ℝ) : ℝ :=
  leakyRelu (∑ k, p.attnSrc k * src k + ∑ k, p.attnDst k * dst k + p.attnEdge * (p.fc0 * cost))

/-- One layer (`GraphAttentionNetwork.py:534-562`, `606-634`): messages along the edges; a region that receives none keeps the zeros with which
the graph library fills the new field. `self.weights` is not used. -/
noncomputable def gatLayer (g : RegionGraph V) (p : GatParams ι κ) (h : V → ι → ℝ) : V → κ → ℝ := fun v =>
  let z := fun u => linearMap p.fc1 (h u)
  let senders := univ.filter fun u => g.edge u v = true
  let e := fun u => attentionScore p (g.cost u v) (z u) (z v)
  if senders = ∅ then fun _ => 0
  else fun k =>
    let alpha := fun u => Real.exp (e u) / ∑ w ∈ senders, Real.exp (e w)
    max 0 (linearMap p.fc2 (h v) k + ∑ u ∈ senders, alpha u * z u k)

/-- The layers one after the other (`GraphAttentionNetwork.py:414-449`): the input layer, then hidden layers of equal width; `none` is the `KeyError`
of `ndata.pop('h')` if the graph has no edge at all. -/
noncomputable def gatForward (g : RegionGraph V) (p : GatParams ι κ) (hidden : List (GatParams κ κ)) (attr : V → ι → ℝ) : Option (V → κ → ℝ) :=
  if univ.filter (fun e : V × V => g.edge e.1 e.2 = true) = ∅ then none
  else some (hidden.foldl (fun h q => gatLayer g q h) (gatLayer g p attr))

/-- A trained network: one stack of layers for origins, one for destinations, and the bilinear regressor. -/
structure GatNet (ι κ : Type) where
  origin : GatParams ι κ × List (GatParams κ κ)
  destination : GatParams ι κ × List (GatParams κ κ)
  bilinear : κ → κ → ℝ
  bias : ℝ

/-- `predict` (`GraphAttentionNetwork.py:247-258`, `330-344`): the square of the regressor at the embeddings of origin and destination. -/
noncomputable def gatPredict (g : RegionGraph V) (net : GatNet ι κ) (attr : V → ι → ℝ) (i j : V) : Option ℝ :=
  (gatForward g net.origin.1 net.origin.2 attr).bind fun o =>
    (gatForward g net.destination.1 net.destination.2 attr).map fun d =>
      (∑ a, ∑ b, net.bilinear a b * o i a * d j b + net.bias) ^ 2

/-! ## Specification -/

/-- `u` reaches `v` in at most `n` steps along edges. -/
inductive Spec.Within (edge : V → V → Prop) : ℕ → V → V → Prop
  | refl (n : ℕ) (v : V) : Spec.Within edge n v v
  | step {n : ℕ} {u w v : V} : Spec.Within edge n u w → edge w v → Spec.Within edge (n + 1) u v

/-- The graph with other names for the regions. -/
def Spec.renamed (σ : V ≃ V') (g : RegionGraph V) : RegionGraph V' := ⟨fun u v => g.adjacent (σ.symm u) (σ.symm v), fun u v => g.cost (σ.symm u) (σ.symm v)⟩

/-- The score of an edge: the attention vector applied to the linear images of sender and receiver and the transformed cost; negative values count one
hundredth. -/
noncomputable def Spec.score (p : GatParams ι κ) (cost : ℝ) (src dst : ι → ℝ) : ℝ :=
  let s := ∑ k, p.attnSrc k * ∑ i, p.fc1 k i * src i + ∑ k, p.attnDst k * ∑ i, p.fc1 k i * dst i + p.attnEdge * p.fc0 * cost
  max s (s / 100)

/-! ## C137 -/

theorem attentionScore_eq (p : GatParams ι κ) (cost : ℝ) (src dst : ι → ℝ) :
    attentionScore p cost (linearMap p.fc1 src) (linearMap p.fc1 dst) = Spec.score p cost src dst := by
  unfold attentionScore Spec.score leakyRelu linearMap
  simp only [← mul_assoc]
  split
  · rw [max_eq_left]; linarith
  · rw [max_eq_right (by linarith)]; ring

/-- C137: there is an edge exactly from a region to an adjacent one at a cost other than zero. -/
theorem C137_edge_iff (g : RegionGraph V) (u v : V) : g.edge u v = true ↔ g.adjacent u v = true ∧ g.cost u v ≠ 0 := by
  unfold RegionGraph.edge
  by_cases h : g.adjacent u v = true <;> simp [h]

/-- C137: so adjacent regions are not always linked. -/
theorem C137_edge_false : ¬ ∀ (g : RegionGraph Bool) (u v : Bool), g.adjacent u v = true → g.edge u v = true := by
  intro h
  have := (C137_edge_iff ⟨fun _ _ => true, fun _ _ => 0⟩ true false).1 (h _ _ _ rfl)
  exact this.2 rfl

/-- C137: the embedding of a region that is reached by an edge is the positive part of its own linear image plus a weighted mean of the images of the
regions that send to it: the weights are positive there, zero elsewhere, sum to one, and are in the ratio of the exponentials of the scores. -/
theorem C137_layer (g : RegionGraph V) (p : GatParams ι κ) (h : V → ι → ℝ) (v : V) (hv : ∃ u, g.edge u v = true) :
    ∃ w : V → ℝ, (∀ u, 0 < w u ↔ g.edge u v = true) ∧ (∀ u, g.edge u v ≠ true → w u = 0) ∧ ∑ u, w u = 1 ∧
      (∀ u u', g.edge u v = true → g.edge u' v = true → w u / w u' =
        Real.exp (Spec.score p (g.cost u v) (h u) (h v) - Spec.score p (g.cost u' v) (h u') (h v))) ∧
      ∀ k, gatLayer g p h v k = max 0 (∑ i, p.fc2 k i * h v i + ∑ u, w u * ∑ i, p.fc1 k i * h u i) := by
  classical
  set senders := univ.filter fun u => g.edge u v = true with hs
  set e := fun u => Spec.score p (g.cost u v) (h u) (h v) with he
  have hne : senders.Nonempty := by
    obtain ⟨u, hu⟩ := hv
    exact ⟨u, by simp [hs, hu]⟩
  have hpos : 0 < ∑ w ∈ senders, Real.exp (e w) := sum_pos (fun _ _ => Real.exp_pos _) hne
  refine ⟨fun u => if g.edge u v = true then Real.exp (e u) / ∑ w ∈ senders, Real.exp (e w) else 0, ?_, ?_, ?_, ?_, ?_⟩
  · intro u
    by_cases hu : g.edge u v = true
    · simp only [hu, if_true, iff_true]
      exact div_pos (Real.exp_pos _) hpos
    · simp [hu]
  · intro u hu
    simp [hu]
  · rw [← sum_filter, ← hs, ← sum_div, div_self hpos.ne']
  · intro u u' hu hu'
    simp only [hu, hu', if_true]
    rw [Real.exp_sub]
    have := (Real.exp_pos (e u')).ne'
    rw [div_div_div_cancel_right₀ hpos.ne']
  · intro k
    unfold gatLayer
    simp only
    rw [if_neg (by rw [← hs]; exact hne.ne_empty)]
    simp only [linearMap, attentionScore_eq]
    congr 2
    rw [sum_filter]
    apply sum_congr rfl
    intro u _
    by_cases hu : g.edge u v = true
    · simp only [hu, if_true, hs, he]
    · simp [hu]

/-- C137: a region without incoming edge has embedding zero, whatever its features and the parameters. -/
theorem C137_isolated (g : RegionGraph V) (p : GatParams ι κ) (hidden : List (GatParams κ κ)) (attr : V → ι → ℝ) (v : V)
    (hv : ∀ u, g.edge u v ≠ true) (out : V → κ → ℝ) (hout : gatForward g p hidden attr = some out) (k : κ) : out v k = 0 := by
  have hempty : (univ.filter fun u => g.edge u v = true) = ∅ := by
    rw [filter_eq_empty_iff]
    intro u _
    exact hv u
  have hl : ∀ {α : Type} [Fintype α] (q : GatParams α κ) (h : V → α → ℝ), gatLayer g q h v k = 0 := by
    intro α _ q h
    unfold gatLayer
    simp only
    rw [if_pos hempty]
  unfold gatForward at hout
  split at hout
  · simp at hout
  · simp only [Option.some.injEq] at hout
    subst hout
    rcases List.eq_nil_or_concat hidden with rfl | ⟨l, q, rfl⟩
    · exact hl p attr
    · rw [List.concat_eq_append, List.foldl_append]
      exact hl q _

/-- C137: so all trips from origins without incoming edge are predicted alike, the square of the bias. -/
theorem C137_isolated_prediction (g : RegionGraph V) (net : GatNet ι κ) (attr : V → ι → ℝ) (i j : V)
    (hi : (∀ u, g.edge u i ≠ true) ∨ ∀ u, g.edge u j ≠ true) (x : ℝ) (hx : gatPredict g net attr i j = some x) : x = net.bias ^ 2 := by
  unfold gatPredict at hx
  simp only [Option.bind_eq_some_iff, Option.map_eq_some_iff] at hx
  obtain ⟨o, ho, d, hd, rfl⟩ := hx
  rcases hi with hi | hj
  · have : ∀ a, o i a = 0 := C137_isolated g _ _ attr i hi o ho
    simp [this]
  · have : ∀ a, d j a = 0 := C137_isolated g _ _ attr j hj d hd
    simp [this]

/-- C137: the network runs exactly if there is an edge. -/
theorem C137_runs_iff (g : RegionGraph V) (net : GatNet ι κ) (attr : V → ι → ℝ) (i j : V) :
    (∃ x, gatPredict g net attr i j = some x) ↔ ∃ u v, g.adjacent u v = true ∧ g.cost u v ≠ 0 := by
  have hedge : (univ.filter (fun e : V × V => g.edge e.1 e.2 = true) = ∅) ↔ ¬ ∃ u v, g.adjacent u v = true ∧ g.cost u v ≠ 0 := by
    rw [filter_eq_empty_iff]
    simp only [← C137_edge_iff]
    simp
  unfold gatPredict gatForward
  by_cases h : ∃ u v, g.adjacent u v = true ∧ g.cost u v ≠ 0
  · have h' : ¬ (univ.filter (fun e : V × V => g.edge e.1 e.2 = true) = ∅) := fun hc => hedge.1 hc h
    simp [h', h]
  · have h' := hedge.2 h
    simp [h', h]

/-- C137: predicted numbers of trips are not negative. -/
theorem C137_nonneg (g : RegionGraph V) (net : GatNet ι κ) (attr : V → ι → ℝ) (i j : V) (x : ℝ) (hx : gatPredict g net attr i j = some x) : 0 ≤ x := by
  unfold gatPredict at hx
  simp only [Option.bind_eq_some_iff, Option.map_eq_some_iff] at hx
  obtain ⟨o, _, d, _, rfl⟩ := hx
  exact sq_nonneg _

theorem edge_renamed (σ : V ≃ V') (g : RegionGraph V) (u v : V) : (Spec.renamed σ g).edge (σ u) (σ v) = g.edge u v := by
  unfold RegionGraph.edge Spec.renamed
  simp

theorem gatLayer_renamed (σ : V ≃ V') (g : RegionGraph V) (p : GatParams ι κ) (h : V → ι → ℝ) (v : V) :
    gatLayer (Spec.renamed σ g) p (fun u => h (σ.symm u)) (σ v) = gatLayer g p h v := by
  have hsend : (univ.filter fun u => (Spec.renamed σ g).edge u (σ v) = true) =
      (univ.filter fun u => g.edge u v = true).map σ.toEmbedding := by
    ext u
    simp only [mem_filter, mem_univ, true_and, mem_map, Equiv.coe_toEmbedding]
    constructor
    · intro hu
      exact ⟨σ.symm u, by rw [← edge_renamed σ g]; simpa using hu, by simp⟩
    · rintro ⟨w, hw, rfl⟩
      rw [edge_renamed]
      exact hw
  unfold gatLayer
  simp only [hsend, map_eq_empty, sum_map, Equiv.coe_toEmbedding, Equiv.symm_apply_apply]
  simp only [Spec.renamed, Equiv.symm_apply_apply]

theorem gatForward_renamed (σ : V ≃ V') (g : RegionGraph V) (p : GatParams ι κ) (hidden : List (GatParams κ κ)) (attr : V → ι → ℝ) :
    gatForward (Spec.renamed σ g) p hidden (fun u => attr (σ.symm u)) = (gatForward g p hidden attr).map fun h u => h (σ.symm u) := by
  have hlayer : ∀ {α β : Type} [Fintype α] [Fintype β] (q : GatParams α β) (h : V → α → ℝ),
      gatLayer (Spec.renamed σ g) q (fun u => h (σ.symm u)) = fun u => gatLayer g q h (σ.symm u) := by
    intro α β _ _ q h
    funext u
    have := gatLayer_renamed σ g q h (σ.symm u)
    rwa [Equiv.apply_symm_apply] at this
  have hfold : ∀ (l : List (GatParams κ κ)) (h : V → κ → ℝ), l.foldl (fun h q => gatLayer (Spec.renamed σ g) q h) (fun u => h (σ.symm u)) =
      fun u => l.foldl (fun h q => gatLayer g q h) h (σ.symm u) := by
    intro l
    induction l with
    | nil => intro h; rfl
    | cons q l ih => intro h; simp only [List.foldl_cons]; rw [hlayer, ih]
  have hedge : (univ.filter (fun e : V' × V' => (Spec.renamed σ g).edge e.1 e.2 = true) = ∅) ↔
      (univ.filter (fun e : V × V => g.edge e.1 e.2 = true) = ∅) := by
    simp only [filter_eq_empty_iff, mem_univ, forall_const]
    constructor
    · intro h e
      have := @h (σ e.1, σ e.2)
      rwa [edge_renamed] at this
    · intro h e
      have := @h (σ.symm e.1, σ.symm e.2)
      rw [← edge_renamed σ g] at this
      simpa using this
  unfold gatForward
  by_cases hc : univ.filter (fun e : V × V => g.edge e.1 e.2 = true) = ∅
  · rw [if_pos hc, if_pos (hedge.2 hc)]
    rfl
  · rw [if_neg hc, if_neg fun h => hc (hedge.1 h), hlayer, hfold]
    rfl

/-- C137: predictions do not depend on the order in which the regions are listed. -/
theorem C137_renamed (σ : V ≃ V') (g : RegionGraph V) (net : GatNet ι κ) (attr : V → ι → ℝ) (i j : V) :
    gatPredict (Spec.renamed σ g) net (fun u => attr (σ.symm u)) (σ i) (σ j) = gatPredict g net attr i j := by
  unfold gatPredict
  rw [gatForward_renamed, gatForward_renamed]
  cases gatForward g net.origin.1 net.origin.2 attr <;> cases gatForward g net.destination.1 net.destination.2 attr <;> simp

theorem gatLayer_local (g : RegionGraph V) (p : GatParams ι κ) (h h' : V → ι → ℝ) (v : V) (hv : h v = h' v)
    (hu : ∀ u, g.edge u v = true → h u = h' u) : gatLayer g p h v = gatLayer g p h' v := by
  have hu' : ∀ u ∈ univ.filter (fun u => g.edge u v = true), h u = h' u := by
    intro u hm
    exact hu u (by simpa using hm)
  unfold gatLayer
  simp only [hv]
  split
  · rfl
  · funext k
    congr 2
    apply sum_congr rfl
    intro u hm
    rw [hu' u hm, sum_congr rfl fun w hw => by rw [hu' w hw]]

theorem Spec.Within.mono {edge : V → V → Prop} {n : ℕ} {u v : V} (h : Spec.Within edge n u v) : Spec.Within edge (n + 1) u v := by
  induction h with
  | refl n v => exact .refl _ _
  | step _ he ih => exact .step ih he

theorem gatFold_local (g : RegionGraph V) (p : GatParams ι κ) (hidden : List (GatParams κ κ)) (attr attr' : V → ι → ℝ) :
    ∀ v, (∀ u, Spec.Within (fun a b => g.edge a b = true) (hidden.length + 1) u v → attr u = attr' u) →
      hidden.foldl (fun h q => gatLayer g q h) (gatLayer g p attr) v = hidden.foldl (fun h q => gatLayer g q h) (gatLayer g p attr') v := by
  induction hidden using List.reverseRecOn with
  | nil =>
    intro v hv
    exact gatLayer_local g p attr attr' v (hv v (.refl _ _)) fun u hu => hv u (.step (.refl _ _) hu)
  | append_singleton l q ih =>
    intro v hv
    simp only [List.foldl_append, List.foldl_cons, List.foldl_nil]
    simp only [List.length_append, List.length_cons, List.length_nil] at hv
    exact gatLayer_local g q _ _ v (ih v fun u hu => hv u hu.mono) fun w hw => ih w fun u hu => hv u (.step hu hw)

/-- C137: a prediction depends only on features of regions from which origin or destination is reached in as many steps as there are layers. -/
theorem C137_local (g : RegionGraph V) (net : GatNet ι κ) (attr attr' : V → ι → ℝ) (i j : V)
    (hi : ∀ u, Spec.Within (fun a b => g.edge a b = true) (net.origin.2.length + 1) u i → attr u = attr' u)
    (hj : ∀ u, Spec.Within (fun a b => g.edge a b = true) (net.destination.2.length + 1) u j → attr u = attr' u) :
    gatPredict g net attr i j = gatPredict g net attr' i j := by
  unfold gatPredict gatForward
  by_cases hc : univ.filter (fun e : V × V => g.edge e.1 e.2 = true) = ∅
  · simp [hc]
  · simp only [hc, if_false, Option.bind_some, Option.map_some, gatFold_local g _ _ attr attr' i hi, gatFold_local g _ _ attr attr' j hj]

/-- C137: the weights of the combination of own and neighbours' part have no influence. -/
theorem C137_weights (g : RegionGraph V) (p : GatParams ι κ) (w : ℝ × ℝ) (h : V → ι → ℝ) :
    gatLayer g { p with weights := w } h = gatLayer g p h := rfl

/-- C137: so a layer is not the convex combination of own and neighbours' part with the softmax of these weights. -/
theorem C137_combination_false : ¬ ∀ (g : RegionGraph Unit) (p : GatParams Unit Unit) (h : Unit → Unit → ℝ), g.edge () () = true →
    gatLayer g p h () () = max 0 (Real.exp p.weights.1 / (Real.exp p.weights.1 + Real.exp p.weights.2) * linearMap p.fc2 (h ()) () +
      Real.exp p.weights.2 / (Real.exp p.weights.1 + Real.exp p.weights.2) * linearMap p.fc1 (h ()) ()) := by
  intro hyp
  let g : RegionGraph Unit := ⟨fun _ _ => true, fun _ _ => 1⟩
  let p : GatParams Unit Unit := ⟨0, fun _ _ => 1, fun _ _ => 1, fun _ => 0, fun _ => 0, 0, (0, 0)⟩
  have he : g.edge () () = true := (C137_edge_iff g () ()).2 ⟨rfl, one_ne_zero⟩
  have h1 := hyp g p (fun _ _ => 1) he
  obtain ⟨w, _, _, hsum, _, hl⟩ := C137_layer g p (fun _ _ => 1) () ⟨(), he⟩
  rw [hl] at h1
  simp only [univ_unique, sum_singleton, PUnit.default_eq_unit] at hsum
  simp [p, linearMap, hsum] at h1
  norm_num at h1

example : ∃ x, gatPredict (⟨fun _ _ => true, fun u v => if u = v then 0 else 1⟩ : RegionGraph Bool)
    (⟨(⟨0, fun _ _ => 1, fun _ _ => 1, fun _ => 0, fun _ => 0, 0, (0, 0)⟩, []), (⟨0, fun _ _ => 1, fun _ _ => 1, fun _ => 0, fun _ => 0, 0, (0, 0)⟩, []),
      fun _ _ => 1, 0⟩ : GatNet Unit Unit) (fun _ _ => 1) true false = some x :=
  (C137_runs_iff _ _ _ _ _).2 ⟨true, false, rfl, by simp⟩

example : ∀ u, (⟨fun u v => u && !v, fun _ _ => 1⟩ : RegionGraph Bool).edge u true ≠ true := by
  intro u hu
  have := ((C137_edge_iff _ _ _).1 hu).1
  simp at this

end GeNSIT
