import Verif.Sampler.JointGeometric
import Verif.Sampler.Averages

/-!
# C200: averages over joint samples of parameters and tables approach their posterior means

The averages over stored samples (`gensit/outputs.py`) of `JointTableSIM_MCMC.run` (`gensit/experiments.py:1663-1790`), tables drawn directly, attractions
held fixed, scaling factor one.
-/

set_option linter.unusedSectionVars false
set_option linter.unusedVariables false
set_option linter.unusedSimpArgs false

open MeasureTheory Set
open scoped ENNReal Nat

namespace GeNSIT

/-- What the argument needs of taking means over one iteration. -/
structure MeanOp {X : Type} (P : (X → ℝ≥0∞) → X → ℝ≥0∞) (D : Set X) (Ok : (X → ℝ≥0∞) → Prop) : Prop where
  add : ∀ f g x, Ok f → x ∈ D → P (fun b => f b + g b) x = P f x + P g x
  mul : ∀ k f x, k ≠ ⊤ → x ∈ D → P (fun b => k * f b) x = k * P f x
  const : ∀ k x, x ∈ D → P (fun _ => k) x = k
  mono : ∀ f g x, (∀ y ∈ D, f y ≤ g y) → x ∈ D → P f x ≤ P g x
  ok : ∀ f, Ok f → Ok (P f)
  okConst : ∀ k, Ok (fun _ => k)
  okAdd : ∀ f g, Ok f → Ok g → Ok (fun b => f b + g b)
  okMul : ∀ f g, Ok f → Ok g → Ok (fun b => f b * g b)

section
variable {X : Type} {P : (X → ℝ≥0∞) → X → ℝ≥0∞} {D : Set X} {Ok : (X → ℝ≥0∞) → Prop} (h : MeanOp P D Ok)

include h in
theorem MeanOp.congr {f g : X → ℝ≥0∞} (hfg : ∀ y ∈ D, f y = g y) {x : X} (hx : x ∈ D) : P f x = P g x :=
  le_antisymm (h.mono _ _ _ (fun y hy => (hfg y hy).le) hx) (h.mono _ _ _ (fun y hy => (hfg y hy).ge) hx)

def opIter (P : (X → ℝ≥0∞) → X → ℝ≥0∞) (F : X → ℝ≥0∞) : ℕ → X → ℝ≥0∞
  | 0 => F
  | n + 1 => P (opIter P F n)

/-- The mean of `g` of the running total of `f`. -/
def opTotal (P : (X → ℝ≥0∞) → X → ℝ≥0∞) (f : X → ℝ) (g : ℝ → ℝ≥0∞) : ℕ → X → ℝ → ℝ≥0∞
  | 0, _, t => g t
  | n + 1, x, t => P (fun y => opTotal P f g n y (t + f y)) x

noncomputable def opMean (P : (X → ℝ≥0∞) → X → ℝ≥0∞) (f : X → ℝ) : ℕ → X → ℝ≥0∞
  | 0 => fun _ => 0
  | n + 1 => P (fun b => ENNReal.ofReal (f b) + opMean P f n b)

noncomputable def opSquare (P : (X → ℝ≥0∞) → X → ℝ≥0∞) (f : X → ℝ) : ℕ → X → ℝ≥0∞
  | 0 => fun _ => 0
  | n + 1 => P (fun b => ENNReal.ofReal (f b) ^ 2 + 2 * ENNReal.ofReal (f b) * opMean P f n b + opSquare P f n b)

variable (f : X → ℝ) (hf : Ok fun b => ENNReal.ofReal (f b)) (hf0 : ∀ x, 0 ≤ f x) (hf1 : ∀ x, f x ≤ 1)

include h hf in
theorem ok_opMean : ∀ n, Ok (opMean P f n)
  | 0 => h.okConst 0
  | n + 1 => h.ok _ (h.okAdd _ _ hf (ok_opMean n))

include h hf in
theorem ok_sq : Ok fun b => ENNReal.ofReal (f b) ^ 2 := by
  have := h.okMul _ _ hf hf
  simpa only [pow_two] using this

include h hf in
theorem ok_cross (n : ℕ) : Ok fun b => 2 * ENNReal.ofReal (f b) * opMean P f n b :=
  h.okMul _ _ (h.okMul _ _ (h.okConst 2) hf) (ok_opMean h f hf n)

include h hf in
theorem ok_opSquare : ∀ n, Ok (opSquare P f n)
  | 0 => h.okConst 0
  | n + 1 => h.ok _ (h.okAdd _ _ (h.okAdd _ _ (ok_sq h f hf) (ok_cross h f hf n)) (ok_opSquare n))

include h hf1 in
theorem opMean_le : ∀ n, ∀ x ∈ D, opMean P f n x ≤ n
  | 0, x, _ => by simp [opMean]
  | n + 1, x, hx => by
    have k : P (fun b => ENNReal.ofReal (f b) + opMean P f n b) x ≤ P (fun _ => 1 + (n : ℝ≥0∞)) x := by
      refine h.mono _ _ _ (fun b hb => ?_) hx
      refine add_le_add ?_ (opMean_le n b hb)
      rw [← ENNReal.ofReal_one]
      exact ENNReal.ofReal_le_ofReal (hf1 b)
    rw [h.const _ _ hx] at k
    simp only [opMean]
    refine k.trans ?_
    push_cast
    rw [add_comm]

include h hf1 in
theorem opSquare_le : ∀ n, ∀ x ∈ D, opSquare P f n x ≤ (n : ℝ≥0∞) ^ 2
  | 0, x, _ => by simp [opSquare]
  | n + 1, x, hx => by
    have k : P (fun b => ENNReal.ofReal (f b) ^ 2 + 2 * ENNReal.ofReal (f b) * opMean P f n b + opSquare P f n b) x ≤
        P (fun _ => 1 ^ 2 + 2 * 1 * (n : ℝ≥0∞) + (n : ℝ≥0∞) ^ 2) x := by
      refine h.mono _ _ _ (fun b hb => ?_) hx
      have h1 : ENNReal.ofReal (f b) ≤ 1 := by
        rw [← ENNReal.ofReal_one]
        exact ENNReal.ofReal_le_ofReal (hf1 b)
      have h2 := opMean_le h f hf1 n b hb
      have h3 := opSquare_le n b hb
      gcongr
    rw [h.const _ _ hx] at k
    simp only [opSquare]
    refine k.trans (le_of_eq ?_)
    push_cast
    ring

include h hf hf0 in
theorem opTotal_eq (m : ℝ) (hm : 0 ≤ m) : ∀ (n : ℕ), ∀ x ∈ D, ∀ t : ℝ, 0 ≤ t →
    opTotal P f (fun t => ENNReal.ofReal ((t - m) ^ 2)) n x t + 2 * ENNReal.ofReal m * (ENNReal.ofReal t + opMean P f n x) =
      ENNReal.ofReal t ^ 2 + 2 * ENNReal.ofReal t * opMean P f n x + opSquare P f n x + ENNReal.ofReal m ^ 2
  | 0, x, _, t, ht => by
    simp only [opTotal, opMean, opSquare, add_zero, mul_zero]
    rw [← ENNReal.ofReal_pow ht, ← ENNReal.ofReal_pow hm, ← ENNReal.ofReal_add (by positivity) (by positivity),
      show (2 : ℝ≥0∞) = ENNReal.ofReal 2 by simp, ← ENNReal.ofReal_mul (by norm_num), ← ENNReal.ofReal_mul (by positivity),
      ← ENNReal.ofReal_add (by positivity) (by positivity)]
    congr 1
    ring
  | n + 1, x, hx, t, ht => by
    have oA := ok_opMean h f hf n
    have oB := ok_opSquare h f hf n
    have ofA : Ok fun b => ENNReal.ofReal (f b) + opMean P f n b := h.okAdd _ _ hf oA
    have o2 : Ok fun b => 2 * ENNReal.ofReal m * (ENNReal.ofReal t + (ENNReal.ofReal (f b) + opMean P f n b)) :=
      h.okMul _ _ (h.okConst _) (h.okAdd _ _ (h.okConst _) ofA)
    have ih := fun (b : X) (hb : b ∈ D) => opTotal_eq m hm n b hb (t + f b) (add_nonneg ht (hf0 b))
    have k1 : 2 * ENNReal.ofReal m * (ENNReal.ofReal t + opMean P f (n + 1) x) =
        P (fun b => 2 * ENNReal.ofReal m * (ENNReal.ofReal t + (ENNReal.ofReal (f b) + opMean P f n b))) x := by
      rw [h.mul _ _ _ (ENNReal.mul_ne_top (by simp) ENNReal.ofReal_ne_top) hx, h.add _ _ _ (h.okConst _) hx, h.const _ _ hx]
      rfl
    have k2 : ENNReal.ofReal t ^ 2 + 2 * ENNReal.ofReal t * opMean P f (n + 1) x + opSquare P f (n + 1) x + ENNReal.ofReal m ^ 2 =
        P (fun b => (ENNReal.ofReal t ^ 2 + ENNReal.ofReal m ^ 2) +
            (2 * ENNReal.ofReal t * (ENNReal.ofReal (f b) + opMean P f n b) +
              (ENNReal.ofReal (f b) ^ 2 + 2 * ENNReal.ofReal (f b) * opMean P f n b + opSquare P f n b))) x := by
      rw [h.add _ _ _ (h.okConst _) hx, h.const _ _ hx, h.add _ _ _ (h.okMul _ _ (h.okConst _) ofA) hx,
        h.mul _ _ _ (ENNReal.mul_ne_top (by simp) ENNReal.ofReal_ne_top) hx]
      simp only [opMean, opSquare]
      ring
    rw [k1, k2]
    simp only [opTotal]
    rw [add_comm, ← h.add _ _ _ o2 hx]
    refine h.congr (fun b hb => ?_) hx
    have e := ih b hb
    rw [add_comm, ENNReal.ofReal_add ht (hf0 b)] at e
    rw [← add_assoc (ENNReal.ofReal t), e]
    ring

include h hf in
theorem ok_opIter : ∀ k, Ok (opIter P (fun b => ENNReal.ofReal (f b)) k)
  | 0 => hf
  | k + 1 => h.ok _ (ok_opIter k)

include h hf in
theorem opMean_sum : ∀ (n : ℕ), ∀ x ∈ D, opMean P f n x = ∑ k ∈ Finset.range n, opIter P (fun b => ENNReal.ofReal (f b)) (k + 1) x
  | 0, x, _ => by simp [opMean]
  | n + 1, x, hx => by
    have hs : ∀ m, P (fun b => ∑ k ∈ Finset.range m, opIter P (fun b => ENNReal.ofReal (f b)) (k + 1) b) x =
        ∑ k ∈ Finset.range m, opIter P (fun b => ENNReal.ofReal (f b)) (k + 1 + 1) x ∧
        Ok (fun b => ∑ k ∈ Finset.range m, opIter P (fun b => ENNReal.ofReal (f b)) (k + 1) b) := by
      intro m
      induction m with
      | zero => simpa using ⟨h.const 0 _ hx, h.okConst 0⟩
      | succ m ih =>
        simp only [Finset.sum_range_succ]
        refine ⟨?_, h.okAdd _ _ ih.2 (ok_opIter h f hf (m + 1))⟩
        rw [h.add _ _ _ ih.2 hx, ih.1]
        rfl
    simp only [opMean]
    rw [h.add _ _ _ hf hx, h.congr (fun b hb => opMean_sum n b hb) hx, (hs n).1, Finset.sum_range_succ' _ n, add_comm]
    rfl

variable {r mu : ℝ} (hr0 : 0 ≤ r) (hr1 : r < 1) (hmu0 : 0 ≤ mu) (hmu1 : mu ≤ 1)
  (hcv : ∀ k, ∀ x ∈ D, |(opIter P (fun b => ENNReal.ofReal (f b)) (k + 1) x).toReal - mu| ≤ r ^ (k + 1))

include h hf hf1 hr0 hr1 hcv in
theorem opMean_close (n : ℕ) {x : X} (hx : x ∈ D) : |(opMean P f n x).toReal - n * mu| ≤ 1 / (1 - r) := by
  have hle := opMean_le h f hf1 n x hx
  have hfin : ∀ k ∈ Finset.range n, opIter P (fun b => ENNReal.ofReal (f b)) (k + 1) x ≠ ⊤ := by
    intro k hk
    refine ne_top_of_le_ne_top (ENNReal.natCast_ne_top n) (le_trans ?_ hle)
    rw [opMean_sum h f hf n x hx]
    exact Finset.single_le_sum (f := fun k => opIter P (fun b => ENNReal.ofReal (f b)) (k + 1) x) (fun _ _ => zero_le) hk
  have hone : ∀ k, |(opIter P (fun b => ENNReal.ofReal (f b)) (k + 1) x).toReal - mu| ≤ r ^ k := by
    intro k
    refine (hcv k x hx).trans ?_
    rw [pow_succ]
    exact mul_le_of_le_one_right (pow_nonneg hr0 k) hr1.le
  rw [opMean_sum h f hf n x hx, ENNReal.toReal_sum hfin]
  have hsum : (n : ℝ) * mu = ∑ _k ∈ Finset.range n, mu := by simp
  rw [hsum, ← Finset.sum_sub_distrib]
  refine (Finset.abs_sum_le_sum_abs _ _).trans ?_
  refine (Finset.sum_le_sum fun k _ => hone k).trans ?_
  rw [le_div_iff₀ (by linarith)]
  have hg := mul_neg_geom_sum r n
  have hp := pow_nonneg hr0 n
  rw [mul_comm, hg]
  linarith

include h hf hf0 hf1 hr0 hr1 hmu0 hmu1 hcv in
theorem opSquare_close : ∀ (n : ℕ), ∀ x ∈ D,
    opSquare P f n x + ENNReal.ofReal ((n * mu) ^ 2) ≤
      ENNReal.ofReal (n * (1 + 2 * (1 / (1 - r)))) + ENNReal.ofReal (2 * (n * mu)) * opMean P f n x
  | 0, x, _ => by simp [opSquare, opMean]
  | n + 1, x, hx => by
    have ih := opSquare_close n
    set R := 1 / (1 - r) with hR
    have hRpos : 0 ≤ R := div_nonneg zero_le_one (by linarith)
    have oA := ok_opMean h f hf n
    have oB := ok_opSquare h f hf n
    have key : ∀ b ∈ D, (ENNReal.ofReal (f b) ^ 2 + 2 * ENNReal.ofReal (f b) * opMean P f n b + opSquare P f n b) +
        ENNReal.ofReal (((n + 1 : ℕ) * mu) ^ 2) ≤ ENNReal.ofReal ((n + 1 : ℕ) * (1 + 2 * R)) +
          ENNReal.ofReal (2 * ((n + 1 : ℕ) * mu)) * (ENNReal.ofReal (f b) + opMean P f n b) := by
      intro b hb
      have hAt : opMean P f n b ≠ ⊤ := ne_top_of_le_ne_top (ENNReal.natCast_ne_top n) (opMean_le h f hf1 n b hb)
      have hBt : opSquare P f n b ≠ ⊤ := ne_top_of_le_ne_top (ENNReal.pow_ne_top (ENNReal.natCast_ne_top n)) (opSquare_le h f hf1 n b hb)
      have hft : ENNReal.ofReal (f b) ^ 2 ≠ ⊤ := ENNReal.pow_ne_top ENNReal.ofReal_ne_top
      have hfA : 2 * ENNReal.ofReal (f b) * opMean P f n b ≠ ⊤ := ENNReal.mul_ne_top (ENNReal.mul_ne_top (by simp) ENNReal.ofReal_ne_top) hAt
      have hprev := ih b hb
      rw [real_of_extended hAt hBt (by positivity) (by positivity) (by positivity)] at hprev
      rw [real_of_extended (ENNReal.add_ne_top.2 ⟨ENNReal.ofReal_ne_top, hAt⟩) (ENNReal.add_ne_top.2 ⟨ENNReal.add_ne_top.2 ⟨hft, hfA⟩, hBt⟩)
        (by positivity) (by positivity) (by positivity), ENNReal.toReal_add ENNReal.ofReal_ne_top hAt,
        ENNReal.toReal_add (ENNReal.add_ne_top.2 ⟨hft, hfA⟩) hBt, ENNReal.toReal_add hft hfA, ENNReal.toReal_pow, ENNReal.toReal_mul,
        ENNReal.toReal_mul, ENNReal.toReal_ofReal (hf0 b)]
      have hcl := opMean_close h f hf hf1 hr0 hr1 hcv n hb
      rw [← hR] at hcl
      set A := (opMean P f n b).toReal
      set E := (opSquare P f n b).toReal
      have v0 := hf0 b
      have v1 := hf1 b
      have hfp : |f b - mu| ≤ 1 := by rw [abs_le]; constructor <;> linarith
      have hprod : (f b - mu) * (A - n * mu) ≤ 1 * R := by
        refine (le_abs_self _).trans ?_
        rw [abs_mul]
        exact mul_le_mul hfp hcl (abs_nonneg _) zero_le_one
      have hsq : (f b - mu) ^ 2 ≤ 1 := by
        rw [← sq_abs]
        exact pow_le_one₀ (abs_nonneg _) hfp
      push_cast
      simp only [ENNReal.toReal_ofNat]
      nlinarith
    have hK := h.mono _ _ _ key hx
    rw [h.add _ _ _ (h.okAdd _ _ (h.okAdd _ _ (ok_sq h f hf) (ok_cross h f hf n)) oB) hx, h.const _ _ hx, h.add _ _ _ (h.okConst _) hx, h.const _ _ hx,
      h.mul _ _ _ ENNReal.ofReal_ne_top hx] at hK
    exact hK

include h in
theorem opTotal_const_mul (g : ℝ → ℝ≥0∞) {k : ℝ≥0∞} (hk : k ≠ ⊤) : ∀ n, ∀ x ∈ D, ∀ t, opTotal P f (fun t => k * g t) n x t = k * opTotal P f g n x t
  | 0, _, _, _ => rfl
  | n + 1, x, hx, t => by
    simp only [opTotal]
    rw [← h.mul _ _ _ hk hx]
    exact h.congr (fun y hy => opTotal_const_mul g hk n y hy _) hx

include h in
theorem opTotal_mono {g g' : ℝ → ℝ≥0∞} (hg : ∀ t, g t ≤ g' t) : ∀ n, ∀ x ∈ D, ∀ t, opTotal P f g n x t ≤ opTotal P f g' n x t
  | 0, _, _, t => hg t
  | n + 1, x, hx, t => h.mono _ _ _ (fun y hy => opTotal_mono hg n y hy _) hx

include h hf hf0 hf1 hr0 hr1 hmu0 hmu1 hcv in
theorem op_mean_square {N : ℕ} (hN : 0 < N) {x : X} (hx : x ∈ D) :
    opTotal P f (fun t => ENNReal.ofReal ((t / N - mu) ^ 2)) N x 0 ≤ ENNReal.ofReal ((1 + 2 * (1 / (1 - r))) / N) := by
  set R := 1 / (1 - r) with hR
  have hRpos : 0 ≤ R := div_nonneg zero_le_one (by linarith)
  have hNr : (0 : ℝ) < N := by exact_mod_cast hN
  have hd := opTotal_eq h f hf hf0 (N * mu) (by positivity) N x hx 0 le_rfl
  have hs := opSquare_close h f hf hf0 hf1 hr0 hr1 hmu0 hmu1 hcv N x hx
  rw [← hR] at hs
  set E := opTotal P f (fun t => ENNReal.ofReal ((t - N * mu) ^ 2)) N x 0 with hE
  have hAt : opMean P f N x ≠ ⊤ := ne_top_of_le_ne_top (ENNReal.natCast_ne_top N) (opMean_le h f hf1 N x hx)
  simp only [ENNReal.ofReal_zero, zero_add, ne_eq, OfNat.ofNat_ne_zero, not_false_eq_true, zero_pow, mul_zero, zero_mul] at hd
  have h2 : ENNReal.ofReal (2 * (N * mu)) = 2 * ENNReal.ofReal (N * mu) := by
    rw [ENNReal.ofReal_mul (by norm_num)]; simp
  rw [h2, ENNReal.ofReal_pow (by positivity), ← hd] at hs
  have hDle : E ≤ ENNReal.ofReal (N * (1 + 2 * R)) :=
    (ENNReal.add_le_add_iff_right (ENNReal.mul_ne_top (ENNReal.mul_ne_top (by simp) ENNReal.ofReal_ne_top) hAt)).1 hs
  have e : (fun t : ℝ => ENNReal.ofReal ((t / N - mu) ^ 2)) =
      fun t => ENNReal.ofReal (1 / (N : ℝ) ^ 2) * ENNReal.ofReal ((t - N * mu) ^ 2) := by
    funext t
    rw [← ENNReal.ofReal_mul (by positivity)]
    congr 1
    field_simp
  rw [e, opTotal_const_mul h f _ ENNReal.ofReal_ne_top N x hx, ← hE]
  refine (mul_le_mul_right hDle _).trans (le_of_eq ?_)
  rw [← ENNReal.ofReal_mul (by positivity)]
  congr 1
  field_simp

include h hf hf0 hf1 hr0 hr1 hmu0 hmu1 hcv in
theorem op_misses {N : ℕ} (hN : 0 < N) {eta : ℝ} (heta : 0 < eta) {x : X} (hx : x ∈ D) :
    opTotal P f ({t : ℝ | eta ≤ |t / N - mu|}.indicator (1 : ℝ → ℝ≥0∞)) N x 0 ≤ ENNReal.ofReal ((1 + 2 * (1 / (1 - r))) / (N * eta ^ 2)) := by
  have hms := op_mean_square h f hf hf0 hf1 hr0 hr1 hmu0 hmu1 hcv hN hx
  have hle : ∀ t : ℝ, {t : ℝ | eta ≤ |t / N - mu|}.indicator (1 : ℝ → ℝ≥0∞) t ≤
      ENNReal.ofReal (1 / eta ^ 2) * ENNReal.ofReal ((t / N - mu) ^ 2) := by
    intro t
    by_cases hh : eta ≤ |t / N - mu|
    · rw [indicator_of_mem (by simpa using hh), Pi.one_apply, ← ENNReal.ofReal_mul (by positivity), ← ENNReal.ofReal_one]
      refine ENNReal.ofReal_le_ofReal ?_
      rw [one_div, inv_mul_eq_div, le_div_iff₀ (by positivity), one_mul, ← sq_abs (t / N - mu)]
      exact pow_le_pow_left₀ heta.le hh 2
    · rw [indicator_of_notMem (by simpa using hh)]
      exact zero_le
  refine (opTotal_mono h f hle N x hx 0).trans ?_
  rw [opTotal_const_mul h f _ ENNReal.ofReal_ne_top N x hx]
  refine (mul_le_mul_right hms _).trans (le_of_eq ?_)
  rw [← ENNReal.ofReal_mul (by positivity)]
  congr 1
  have hNr : (N : ℝ) ≠ 0 := by exact_mod_cast hN.ne'
  field_simp

end

section
variable {X : Type} {P : (X → ℝ≥0∞) → X → ℝ≥0∞} {D : Set X} {Ok : (X → ℝ≥0∞) → Prop}

theorem MeanOp.iter_ok (h : MeanOp P D Ok) {F : X → ℝ≥0∞} (hF : Ok F) : ∀ k, Ok (opIter P F k)
  | 0 => hF
  | k + 1 => h.ok _ (h.iter_ok hF k)

/-- Several iterations at once. -/
theorem MeanOp.iter (h : MeanOp P D Ok) (k : ℕ) : MeanOp (fun F => opIter P F k) D Ok where
  add F G x hF hx := by
    induction k generalizing x with
    | zero => rfl
    | succ k ih =>
      simp only [opIter]
      rw [h.congr (fun y hy => ih y hy) hx, h.add _ _ _ (h.iter_ok hF k) hx]
  mul c F x hc hx := by
    induction k generalizing x with
    | zero => rfl
    | succ k ih =>
      simp only [opIter]
      rw [h.congr (fun y hy => ih y hy) hx, h.mul _ _ _ hc hx]
  const c x hx := by
    induction k generalizing x with
    | zero => rfl
    | succ k ih =>
      simp only [opIter]
      rw [h.congr (fun y hy => ih y hy) hx, h.const _ _ hx]
  mono F G x hFG hx := by
    induction k generalizing x with
    | zero => exact hFG x hx
    | succ k ih => exact h.mono _ _ _ (fun y hy => ih y hy) hx
  ok F hF := h.iter_ok hF k
  okConst := h.okConst
  okAdd := h.okAdd
  okMul := h.okMul

theorem opIter_add (F : X → ℝ≥0∞) (k m : ℕ) : opIter P F (k + m) = opIter P (opIter P F m) k := by
  induction k with
  | zero => rw [Nat.zero_add]; rfl
  | succ k ih => rw [Nat.succ_add]; simp only [opIter]; rw [ih]

theorem opIter_iter (F : X → ℝ≥0∞) (k : ℕ) : ∀ n, opIter (fun F => opIter P F k) F n = opIter P F (k * n)
  | 0 => rfl
  | n + 1 => by
    refine Eq.trans ?_ (congrArg (opIter P F) (show k + k * n = k * (n + 1) by rw [Nat.mul_succ, Nat.add_comm]))
    rw [opIter_add F k (k * n), ← opIter_iter F k n]
    rfl

end

/-! ### The joint sampler -/

section
variable {q : ℝ × ℝ → ℝ≥0∞} (hq : Measurable q) (hq1 : ∫⁻ w, q w = 1) {L : ℝ × ℝ → ℝ} (hL : Measurable L)

include hq hL in
theorem metroMean_add {f : ℝ × ℝ → ℝ≥0∞} (hf : Measurable f) (g : ℝ × ℝ → ℝ≥0∞) (k : ℕ) :
    metroMean L q (fun b => f b + g b) k = fun a => metroMean L q f k a + metroMean L q g k a := by
  induction k with
  | zero => rfl
  | succ k ih =>
    funext a
    rw [metroMean_step, ih, oneStep_add hL hq (measurable_metroMean L hL q hq f hf k)]
    rfl

theorem metroMean_const_mul (f : ℝ × ℝ → ℝ≥0∞) {c : ℝ≥0∞} (hc : c ≠ ⊤) (k : ℕ) :
    metroMean L q (fun b => c * f b) k = fun a => c * metroMean L q f k a := by
  induction k with
  | zero => rfl
  | succ k ih =>
    funext a
    rw [metroMean_step, ih, oneStep_const_mul _ hc]
    rfl

theorem metroMean_mono {f g : ℝ × ℝ → ℝ≥0∞} (h : ∀ b ∈ box, f b ≤ g b) (k : ℕ) : ∀ a ∈ box, metroMean L q f k a ≤ metroMean L q g k a := by
  induction k with
  | zero => exact h
  | succ k ih => exact fun a ha => oneStep_mono ih ha

end

variable {ι T : Type} [Fintype ι]

/-- The mean of `g` of the running total of `f` over the parameters and tables stored by `N` iterations (`gensit/experiments.py:1663-1790`: one sample of
parameters and table is written per iteration, after the table steps), as `jointMean`. -/
noncomputable def Spec.jointTotalMean (ph : Phys ℝ ι T) (z : (Fin 2 → ℝ) → ℝ × ℝ) (q : ℝ × ℝ → ℝ≥0∞) (M : ℕ) (S : Finset T)
    (law : (Fin 2 → ℝ) → T → T → ℝ≥0∞) (f : ℝ × ℝ → T → ℝ) (g : ℝ → ℝ≥0∞) : ℕ → JointState ℝ ι T → ℝ → ℝ≥0∞
  | 0, _, total => g total
  | N + 1, s, total => thetaMean ph z q
      (fun s' => ∑ t ∈ S, law s'.theta s'.table t * (jointStep ph s' (.tables t)).elim 0
        (fun s'' => Spec.jointTotalMean ph z q M S law f g N s'' (total + f (s''.theta 0, s''.theta 1) s''.table))) M s

section

variable (ph : Phys ℝ ι T) (z : (Fin 2 → ℝ) → ℝ × ℝ) (x : ι → ℝ) {q : ℝ × ℝ → ℝ≥0∞} (S : Finset T)
  (draw : (Fin 2 → ℝ) → T → ℝ≥0∞) (f : ℝ × ℝ → T → ℝ) {B c : ℝ} {M : ℕ}
  (hb : ph.bmax = 1) (hq : Spec.SignFreeWalk q) (hM : 0 < M) (hL : ∀ t ∈ S, Measurable (jointLp ph z x t))
  (hB : ∀ t ∈ S, ∀ a ∈ Spec.Square, |jointLp ph z x t a| ≤ B) (hc0 : 0 < c)
  (hc : ∀ w : ℝ × ℝ, |w.1| < 2 → |w.2| < 2 → ENNReal.ofReal c ≤ q w)
  (hdraw : ∀ t, Measurable fun a : ℝ × ℝ => draw ![a.1, a.2] t) (hdraw1 : ∀ a ∈ Spec.Square, ∑ t ∈ S, draw ![a.1, a.2] t = 1)
  (hf : ∀ t, Measurable fun a => f a t) (hf0 : ∀ a t, 0 ≤ f a t) (hf1 : ∀ a t, f a t ≤ 1)

/-- Means over one iteration from coherent states. -/
noncomputable def jointOp (ph : Phys ℝ ι T) (z : (Fin 2 → ℝ) → ℝ × ℝ) (x : ι → ℝ) (q : ℝ × ℝ → ℝ≥0∞) (S : Finset T) (draw : (Fin 2 → ℝ) → T → ℝ≥0∞) (M : ℕ)
    (F : (ℝ × ℝ) × T → ℝ≥0∞) (p : (ℝ × ℝ) × T) : ℝ≥0∞ :=
  metroMean (jointLp ph z x p.2) q (fun b => ∑ t' ∈ S, draw ![b.1, b.2] t' * F (b, t')) M p.1

def jointDom (S : Finset T) : Set ((ℝ × ℝ) × T) := {p | p.1 ∈ Spec.Square ∧ p.2 ∈ S}

def jointOk (S : Finset T) (F : (ℝ × ℝ) × T → ℝ≥0∞) : Prop := ∀ t ∈ S, Measurable fun a => F (a, t)

include hq hL hdraw hdraw1 in
theorem jointOp_mean : MeanOp (jointOp ph z x q S draw M) (jointDom S) (jointOk S) where
  add F G p hF hp := by
    unfold jointOp
    have e : (fun b : ℝ × ℝ => ∑ t' ∈ S, draw ![b.1, b.2] t' * (F (b, t') + G (b, t'))) =
        fun b => (∑ t' ∈ S, draw ![b.1, b.2] t' * F (b, t')) + ∑ t' ∈ S, draw ![b.1, b.2] t' * G (b, t') := by
      funext b
      rw [← Finset.sum_add_distrib]
      exact Finset.sum_congr rfl fun t' _ => mul_add _ _ _
    have mF : Measurable fun b : ℝ × ℝ => ∑ t' ∈ S, draw ![b.1, b.2] t' * F (b, t') := Finset.measurable_fun_sum _ fun t' ht' => (hdraw t').mul (hF t' ht')
    rw [e, metroMean_add hq.meas (hL _ hp.2) mF]
  mul k F p hk hp := by
    unfold jointOp
    have e : (fun b : ℝ × ℝ => ∑ t' ∈ S, draw ![b.1, b.2] t' * (k * F (b, t'))) = fun b => k * ∑ t' ∈ S, draw ![b.1, b.2] t' * F (b, t') := by
      funext b
      rw [Finset.mul_sum]
      exact Finset.sum_congr rfl fun t' _ => mul_left_comm _ _ _
    rw [e, metroMean_const_mul _ hk]
  const k p hp := by
    have hk : ∀ b ∈ box, k ≤ ∑ t' ∈ S, draw ![b.1, b.2] t' * k ∧ ∑ t' ∈ S, draw ![b.1, b.2] t' * k ≤ k := by
      intro b hb'
      rw [← Finset.sum_mul, hdraw1 b hb', one_mul]
      exact ⟨le_rfl, le_rfl⟩
    have := metroMean_between hq.meas hq.mass (jointLp ph z x p.2) hk M p.1 hp.1
    exact le_antisymm this.2 this.1
  mono F G p h hp := metroMean_mono (fun b hb' => Finset.sum_le_sum fun t' ht' => mul_le_mul_right (h (b, t') ⟨hb', ht'⟩) _) M p.1 hp.1
  ok F hF t ht := measurable_metroMean _ (hL t ht) q hq.meas _ (Finset.measurable_fun_sum _ fun t' ht' => (hdraw t').mul (hF t' ht')) M
  okConst k t _ := measurable_const
  okAdd F G hF hG t ht := (hF t ht).add (hG t ht)
  okMul F G hF hG t ht := (hF t ht).mul (hG t ht)

include hb in
theorem jointTotal_stateAt (g : ℝ → ℝ≥0∞) (N : ℕ) : ∀ (a : ℝ × ℝ) (t : T) (total : ℝ),
    Spec.jointTotalMean ph z q M S (fun th _ t' => draw th t') f g N (stateAt ph z x a t) total =
      opTotal (jointOp ph z x q S draw M) (fun p => f p.1 p.2) g N (a, t) total := by
  induction N with
  | zero => intros; rfl
  | succ N ih =>
    intro a t total
    simp only [Spec.jointTotalMean, opTotal, jointOp]
    rw [thetaMean_stateAt]
    simp only [jointStep_tables_stateAt ph z x hb, Option.elim, ih]
    rfl

include hb in
theorem jointMean_op (psi : ℝ × ℝ → T → ℝ≥0∞) (N : ℕ) : ∀ (a : ℝ × ℝ) (t : T),
    jointMean ph z q M S (fun th _ t' => draw th t') psi N (stateAt ph z x a t) =
      opIter (jointOp ph z x q S draw M) (fun p => psi p.1 p.2) N (a, t) := by
  induction N with
  | zero =>
    intro a t
    rfl
  | succ N ih =>
    intro a t
    rw [jointMean_stateAt ph z x q M S _ psi hb]
    simp only [opIter, jointOp, ih]

include hb hq hM hL hB hc0 hc hdraw hdraw1 hf hf1 in
theorem jointOp_converges
    (hinv : ∀ a ∈ Spec.Square, ∀ t' ∈ S, ∑ t ∈ S, ENNReal.ofReal (Real.exp (-ph.nlt ![a.1, a.2] x t)) * draw ![a.1, a.2] t' =
      ENNReal.ofReal (Real.exp (-ph.nlt ![a.1, a.2] x t'))) (k : ℕ) : ∀ p ∈ jointDom S,
    |(opIter (jointOp ph z x q S draw M) (fun p => ENNReal.ofReal (f p.1 p.2)) (k + 1) p).toReal -
      (Spec.jointPosteriorMean (Spec.jointWeight (fun b => (z ![b.1, b.2]).1) (fun b => ph.pot ![b.1, b.2] x)
          (fun b t => ph.nlt ![b.1, b.2] x t) 1) S fun a t => ENNReal.ofReal (f a t)).toReal| ≤ (1 - 4 * c * Real.exp (-(2 * B))) ^ (k + 1) := by
  rintro ⟨a, t⟩ ⟨ha, ht⟩
  have hp1 : ∀ a t, ENNReal.ofReal (f a t) ≤ 1 := by
    intro a t
    rw [← ENNReal.ofReal_one]
    exact ENNReal.ofReal_le_ofReal (hf1 a t)
  have := C199_converges_partial ph z x S draw (fun a t => ENNReal.ofReal (f a t)) hb ⟨hq.meas, hq.mass⟩ hM hL hB hc0.le hc hdraw hdraw1
    (fun t => (hf t).ennreal_ofReal) hp1 hq.sign0 hq.sign1 hinv (k + 1) ha ht
  rwa [jointMean_op ph z x S draw hb] at this

include hb hq hM hL hB hc0 hc hdraw hdraw1 hf hf0 hf1 in
/-- **C200.** Under the hypotheses of C199 the mean squared error of the average of `f` over the parameters and tables stored by `N` iterations, taken for
its mean under the joint posterior, is at most `(1 + 2 / (4 c exp (-2B))) / N`, whatever the initial parameters and table. -/
theorem C200_mean_square_partial
    (hinv : ∀ a ∈ Spec.Square, ∀ t' ∈ S, ∑ t ∈ S, ENNReal.ofReal (Real.exp (-ph.nlt ![a.1, a.2] x t)) * draw ![a.1, a.2] t' =
      ENNReal.ofReal (Real.exp (-ph.nlt ![a.1, a.2] x t'))) {N : ℕ} (hN : 0 < N) {a : ℝ × ℝ} (ha : a ∈ Spec.Square) {t : T} (ht : t ∈ S) :
    let mean := (Spec.jointPosteriorMean (Spec.jointWeight (fun b => (z ![b.1, b.2]).1) (fun b => ph.pot ![b.1, b.2] x)
          (fun b t => ph.nlt ![b.1, b.2] x t) 1) S fun a t => ENNReal.ofReal (f a t)).toReal
    Spec.jointTotalMean ph z q M S (fun th _ t' => draw th t') f (fun total => ENNReal.ofReal ((total / N - mean) ^ 2)) N (stateAt ph z x a t) 0 ≤
      ENNReal.ofReal ((1 + 2 * (1 / (4 * c * Real.exp (-(2 * B))))) / N) := by
  intro mean
  have hpos := mul_pos hc0 (Real.exp_pos (-(2 * B)))
  have hr0 := rate_nonneg (hL t ht) hq.meas hq.mass (hB t ht) hc0.le hc
  have hp1 : ∀ a t, ENNReal.ofReal (f a t) ≤ 1 := by
    intro a t
    rw [← ENNReal.ofReal_one]
    exact ENNReal.ofReal_le_ofReal (hf1 a t)
  have key := op_mean_square (jointOp_mean ph z x S draw (M := M) hq hL hdraw hdraw1) (fun p => f p.1 p.2) (fun t _ => (hf t).ennreal_ofReal)
    (fun p => hf0 _ _) (fun p => hf1 _ _) hr0 (by linarith) ENNReal.toReal_nonneg
    (ENNReal.toReal_le_of_le_ofReal zero_le_one (by rw [ENNReal.ofReal_one]; exact jointPosteriorMean_le _ S hp1))
    (jointOp_converges ph z x S draw f hb hq hM hL hB hc0 hc hdraw hdraw1 hf hf1 hinv) hN (x := (a, t)) ⟨ha, ht⟩
  rw [jointTotal_stateAt ph z x S draw f hb]
  rwa [sub_sub_cancel] at key

include hb hq hM hL hB hc0 hc hdraw hdraw1 hf hf0 hf1 in
/-- **C200.** The probability that the average over `N` iterations misses the posterior mean by `eta` or more is at most a constant over `N eta²`. -/
theorem C200_misses_partial
    (hinv : ∀ a ∈ Spec.Square, ∀ t' ∈ S, ∑ t ∈ S, ENNReal.ofReal (Real.exp (-ph.nlt ![a.1, a.2] x t)) * draw ![a.1, a.2] t' =
      ENNReal.ofReal (Real.exp (-ph.nlt ![a.1, a.2] x t'))) {N : ℕ} (hN : 0 < N) {eta : ℝ} (heta : 0 < eta) {a : ℝ × ℝ} (ha : a ∈ Spec.Square)
    {t : T} (ht : t ∈ S) :
    let mean := (Spec.jointPosteriorMean (Spec.jointWeight (fun b => (z ![b.1, b.2]).1) (fun b => ph.pot ![b.1, b.2] x)
          (fun b t => ph.nlt ![b.1, b.2] x t) 1) S fun a t => ENNReal.ofReal (f a t)).toReal
    Spec.jointTotalMean ph z q M S (fun th _ t' => draw th t') f ({total : ℝ | eta ≤ |total / N - mean|}.indicator (1 : ℝ → ℝ≥0∞)) N (stateAt ph z x a t) 0 ≤
      ENNReal.ofReal ((1 + 2 * (1 / (4 * c * Real.exp (-(2 * B))))) / (N * eta ^ 2)) := by
  intro mean
  have hpos := mul_pos hc0 (Real.exp_pos (-(2 * B)))
  have hr0 := rate_nonneg (hL t ht) hq.meas hq.mass (hB t ht) hc0.le hc
  have hp1 : ∀ a t, ENNReal.ofReal (f a t) ≤ 1 := by
    intro a t
    rw [← ENNReal.ofReal_one]
    exact ENNReal.ofReal_le_ofReal (hf1 a t)
  have key := op_misses (jointOp_mean ph z x S draw (M := M) hq hL hdraw hdraw1) (fun p => f p.1 p.2) (fun t _ => (hf t).ennreal_ofReal)
    (fun p => hf0 _ _) (fun p => hf1 _ _) hr0 (by linarith) ENNReal.toReal_nonneg
    (ENNReal.toReal_le_of_le_ofReal zero_le_one (by rw [ENNReal.ofReal_one]; exact jointPosteriorMean_le _ S hp1))
    (jointOp_converges ph z x S draw f hb hq hM hL hB hc0 hc hdraw hdraw1 hf hf1 hinv) hN heta (x := (a, t)) ⟨ha, ht⟩
  rw [jointTotal_stateAt ph z x S draw f hb]
  rwa [sub_sub_cancel] at key

include hb hq hM hL hB hc0 hc hdraw hdraw1 hf hf0 hf1 in
/-- **C200.** Averages over joint samples are consistent: the probability of missing the posterior mean by any margin tends to 0. -/
theorem C200_consistent_partial
    (hinv : ∀ a ∈ Spec.Square, ∀ t' ∈ S, ∑ t ∈ S, ENNReal.ofReal (Real.exp (-ph.nlt ![a.1, a.2] x t)) * draw ![a.1, a.2] t' =
      ENNReal.ofReal (Real.exp (-ph.nlt ![a.1, a.2] x t'))) {eta : ℝ} (heta : 0 < eta) {a : ℝ × ℝ} (ha : a ∈ Spec.Square)
    {t : T} (ht : t ∈ S) :
    let mean := (Spec.jointPosteriorMean (Spec.jointWeight (fun b => (z ![b.1, b.2]).1) (fun b => ph.pot ![b.1, b.2] x)
          (fun b t => ph.nlt ![b.1, b.2] x t) 1) S fun a t => ENNReal.ofReal (f a t)).toReal
    Filter.Tendsto (fun N : ℕ => Spec.jointTotalMean ph z q M S (fun th _ t' => draw th t') f
      ({total : ℝ | eta ≤ |total / N - mean|}.indicator (1 : ℝ → ℝ≥0∞)) N (stateAt ph z x a t) 0) Filter.atTop (nhds 0) := by
  intro mean
  have hlim : Filter.Tendsto (fun N : ℕ => ENNReal.ofReal ((1 + 2 * (1 / (4 * c * Real.exp (-(2 * B))))) / (N * eta ^ 2))) Filter.atTop (nhds 0) := by
    rw [← ENNReal.ofReal_zero]
    refine ENNReal.tendsto_ofReal ?_
    have h : (fun N : ℕ => (1 + 2 * (1 / (4 * c * Real.exp (-(2 * B))))) / ((N : ℝ) * eta ^ 2)) =
        fun N : ℕ => ((1 + 2 * (1 / (4 * c * Real.exp (-(2 * B))))) / eta ^ 2) / (N : ℝ) := by
      funext N
      rw [div_div, mul_comm (eta ^ 2)]
    rw [h]
    exact tendsto_const_div_atTop_nhds_zero_nat _
  refine tendsto_of_tendsto_of_tendsto_of_le_of_le' tendsto_const_nhds hlim (Filter.Eventually.of_forall fun _ => zero_le) ?_
  filter_upwards [Filter.eventually_gt_atTop 0] with N hN
  exact C200_misses_partial ph z x S draw f hb hq hM hL hB hc0 hc hdraw hdraw1 hf hf0 hf1 hinv hN heta ha ht

/-- The mean of `g` of the total of `f` over `N` iterations that follow `k` discarded ones (`burnin`, `gensit/outputs.py`). -/
noncomputable def Spec.jointBurnedMean (ph : Phys ℝ ι T) (z : (Fin 2 → ℝ) → ℝ × ℝ) (q : ℝ × ℝ → ℝ≥0∞) (M : ℕ) (S : Finset T)
    (law : (Fin 2 → ℝ) → T → T → ℝ≥0∞) (f : ℝ × ℝ → T → ℝ) (g : ℝ → ℝ≥0∞) (N : ℕ) : ℕ → JointState ℝ ι T → ℝ≥0∞
  | 0, s => Spec.jointTotalMean ph z q M S law f g N s 0
  | k + 1, s => thetaMean ph z q
      (fun s' => ∑ t ∈ S, law s'.theta s'.table t * (jointStep ph s' (.tables t)).elim 0 (Spec.jointBurnedMean ph z q M S law f g N k)) M s

include hb hq hM hL hB hc0 hc hdraw hdraw1 hf hf0 hf1 in
theorem burned_le (g : ℝ → ℝ≥0∞) (N : ℕ) {K : ℝ≥0∞}
    (hK : ∀ a ∈ Spec.Square, ∀ t ∈ S, Spec.jointTotalMean ph z q M S (fun th _ t' => draw th t') f g N (stateAt ph z x a t) 0 ≤ K) (k : ℕ) :
    ∀ a ∈ Spec.Square, ∀ t ∈ S, Spec.jointBurnedMean ph z q M S (fun th _ t' => draw th t') f g N k (stateAt ph z x a t) ≤ K := by
  induction k with
  | zero => exact hK
  | succ k ih =>
    intro a ha t ht
    have op := jointOp_mean ph z x S draw (M := M) hq hL hdraw hdraw1
    have e : Spec.jointBurnedMean ph z q M S (fun th _ t' => draw th t') f g N (k + 1) (stateAt ph z x a t) =
        jointOp ph z x q S draw M (fun p => Spec.jointBurnedMean ph z q M S (fun th _ t' => draw th t') f g N k (stateAt ph z x p.1 p.2)) (a, t) := by
      simp only [Spec.jointBurnedMean, jointOp]
      rw [thetaMean_stateAt]
      simp only [jointStep_tables_stateAt ph z x hb, Option.elim]
      rfl
    rw [e]
    exact (op.mono _ (fun _ => K) (a, t) (fun p hp => ih p.1 hp.1 p.2 hp.2) ⟨ha, ht⟩).trans (op.const K (a, t) ⟨ha, ht⟩).le

include hb hq hM hL hB hc0 hc hdraw hdraw1 hf hf0 hf1 in
/-- **C200.** The same bounds after any number of discarded iterations. -/
theorem C200_burnin_partial
    (hinv : ∀ a ∈ Spec.Square, ∀ t' ∈ S, ∑ t ∈ S, ENNReal.ofReal (Real.exp (-ph.nlt ![a.1, a.2] x t)) * draw ![a.1, a.2] t' =
      ENNReal.ofReal (Real.exp (-ph.nlt ![a.1, a.2] x t'))) {N : ℕ} (hN : 0 < N) {eta : ℝ} (heta : 0 < eta) (burnin : ℕ) {a : ℝ × ℝ} (ha : a ∈ Spec.Square)
    {t : T} (ht : t ∈ S) :
    let mean := (Spec.jointPosteriorMean (Spec.jointWeight (fun b => (z ![b.1, b.2]).1) (fun b => ph.pot ![b.1, b.2] x)
          (fun b t => ph.nlt ![b.1, b.2] x t) 1) S fun a t => ENNReal.ofReal (f a t)).toReal
    Spec.jointBurnedMean ph z q M S (fun th _ t' => draw th t') f (fun total => ENNReal.ofReal ((total / N - mean) ^ 2)) N burnin (stateAt ph z x a t) ≤
        ENNReal.ofReal ((1 + 2 * (1 / (4 * c * Real.exp (-(2 * B))))) / N) ∧
      Spec.jointBurnedMean ph z q M S (fun th _ t' => draw th t') f ({total : ℝ | eta ≤ |total / N - mean|}.indicator (1 : ℝ → ℝ≥0∞)) N burnin
        (stateAt ph z x a t) ≤ ENNReal.ofReal ((1 + 2 * (1 / (4 * c * Real.exp (-(2 * B))))) / (N * eta ^ 2)) := by
  intro mean
  exact ⟨burned_le ph z x S draw f hb hq hM hL hB hc0 hc hdraw hdraw1 hf hf0 hf1 _ N (fun a ha t ht =>
      C200_mean_square_partial ph z x S draw f hb hq hM hL hB hc0 hc hdraw hdraw1 hf hf0 hf1 hinv hN ha ht) burnin a ha t ht,
    burned_le ph z x S draw f hb hq hM hL hB hc0 hc hdraw hdraw1 hf hf0 hf1 _ N (fun a ha t ht =>
      C200_misses_partial ph z x S draw f hb hq hM hL hB hc0 hc hdraw hdraw1 hf hf0 hf1 hinv hN heta ha ht) burnin a ha t ht⟩

/-- The mean of `F` of the state after `k` iterations. -/
noncomputable def Spec.jointAfter (ph : Phys ℝ ι T) (z : (Fin 2 → ℝ) → ℝ × ℝ) (q : ℝ × ℝ → ℝ≥0∞) (M : ℕ) (S : Finset T)
    (law : (Fin 2 → ℝ) → T → T → ℝ≥0∞) (F : JointState ℝ ι T → ℝ≥0∞) : ℕ → JointState ℝ ι T → ℝ≥0∞
  | 0, s => F s
  | k + 1, s => thetaMean ph z q
      (fun s' => ∑ t ∈ S, law s'.theta s'.table t * (jointStep ph s' (.tables t)).elim 0 (Spec.jointAfter ph z q M S law F k)) M s

/-- As `Spec.jointTotalMean` when only every `k`-th sample is kept (`thinning`, `trim`, `gensit/outputs.py`). -/
noncomputable def Spec.jointThinnedMean (ph : Phys ℝ ι T) (z : (Fin 2 → ℝ) → ℝ × ℝ) (q : ℝ × ℝ → ℝ≥0∞) (M : ℕ) (S : Finset T)
    (law : (Fin 2 → ℝ) → T → T → ℝ≥0∞) (f : ℝ × ℝ → T → ℝ) (g : ℝ → ℝ≥0∞) (k : ℕ) : ℕ → JointState ℝ ι T → ℝ → ℝ≥0∞
  | 0, _, total => g total
  | N + 1, s, total => Spec.jointAfter ph z q M S law
      (fun s' => Spec.jointThinnedMean ph z q M S law f g k N s' (total + f (s'.theta 0, s'.theta 1) s'.table)) k s

include hb in
theorem jointAfter_op (F : JointState ℝ ι T → ℝ≥0∞) (k : ℕ) : ∀ (a : ℝ × ℝ) (t : T),
    Spec.jointAfter ph z q M S (fun th _ t' => draw th t') F k (stateAt ph z x a t) =
      opIter (jointOp ph z x q S draw M) (fun p => F (stateAt ph z x p.1 p.2)) k (a, t) := by
  induction k with
  | zero => intros; rfl
  | succ k ih =>
    intro a t
    simp only [Spec.jointAfter, opIter, jointOp]
    rw [thetaMean_stateAt]
    simp only [jointStep_tables_stateAt ph z x hb, Option.elim, ih]
    rfl

include hb in
theorem jointThinned_op (g : ℝ → ℝ≥0∞) (k N : ℕ) : ∀ (a : ℝ × ℝ) (t : T) (total : ℝ),
    Spec.jointThinnedMean ph z q M S (fun th _ t' => draw th t') f g k N (stateAt ph z x a t) total =
      opTotal (fun F => opIter (jointOp ph z x q S draw M) F k) (fun p => f p.1 p.2) g N (a, t) total := by
  induction N with
  | zero => intros; rfl
  | succ N ih =>
    intro a t total
    simp only [Spec.jointThinnedMean, opTotal]
    rw [jointAfter_op ph z x S draw hb]
    congr 1
    funext p
    exact ih p.1 p.2 _

include hb hq hM hL hB hc0 hc hdraw hdraw1 hf hf0 hf1 in
/-- **C200.** Keeping only every `k`-th sample, the mean squared error of the average over the `N` kept samples obeys the same bound. -/
theorem C200_thinning_partial
    (hinv : ∀ a ∈ Spec.Square, ∀ t' ∈ S, ∑ t ∈ S, ENNReal.ofReal (Real.exp (-ph.nlt ![a.1, a.2] x t)) * draw ![a.1, a.2] t' =
      ENNReal.ofReal (Real.exp (-ph.nlt ![a.1, a.2] x t'))) {N : ℕ} (hN : 0 < N) {k : ℕ} (hk : 0 < k) {a : ℝ × ℝ} (ha : a ∈ Spec.Square) {t : T} (ht : t ∈ S) :
    let mean := (Spec.jointPosteriorMean (Spec.jointWeight (fun b => (z ![b.1, b.2]).1) (fun b => ph.pot ![b.1, b.2] x)
          (fun b t => ph.nlt ![b.1, b.2] x t) 1) S fun a t => ENNReal.ofReal (f a t)).toReal
    Spec.jointThinnedMean ph z q M S (fun th _ t' => draw th t') f (fun total => ENNReal.ofReal ((total / N - mean) ^ 2)) k N (stateAt ph z x a t) 0 ≤
      ENNReal.ofReal ((1 + 2 * (1 / (4 * c * Real.exp (-(2 * B))))) / N) := by
  intro mean
  have hpos := mul_pos hc0 (Real.exp_pos (-(2 * B)))
  have hr0 := rate_nonneg (hL t ht) hq.meas hq.mass (hB t ht) hc0.le hc
  have hp1 : ∀ a t, ENNReal.ofReal (f a t) ≤ 1 := by
    intro a t
    rw [← ENNReal.ofReal_one]
    exact ENNReal.ofReal_le_ofReal (hf1 a t)
  have hcv : ∀ n, ∀ p ∈ jointDom S, |(opIter (fun F => opIter (jointOp ph z x q S draw M) F k) (fun p => ENNReal.ofReal (f p.1 p.2)) (n + 1) p).toReal - mean| ≤
      (1 - 4 * c * Real.exp (-(2 * B))) ^ (n + 1) := by
    intro n p hp
    rw [opIter_iter]
    obtain ⟨m, hm⟩ : ∃ m, k * (n + 1) = m + 1 := ⟨k * (n + 1) - 1, (Nat.succ_pred_eq_of_pos (Nat.mul_pos hk (Nat.succ_pos n))).symm⟩
    rw [hm]
    refine (jointOp_converges ph z x S draw f hb hq hM hL hB hc0 hc hdraw hdraw1 hf hf1 hinv m p hp).trans ?_
    refine pow_le_pow_of_le_one hr0 (by linarith) ?_
    rw [← hm]
    exact Nat.le_mul_of_pos_left _ hk
  have key := op_mean_square ((jointOp_mean ph z x S draw (M := M) hq hL hdraw hdraw1).iter k) (fun p => f p.1 p.2) (fun t _ => (hf t).ennreal_ofReal)
    (fun p => hf0 _ _) (fun p => hf1 _ _) hr0 (by linarith) ENNReal.toReal_nonneg
    (ENNReal.toReal_le_of_le_ofReal zero_le_one (by rw [ENNReal.ofReal_one]; exact jointPosteriorMean_le _ S hp1)) hcv hN (x := (a, t)) ⟨ha, ht⟩
  rw [jointThinned_op ph z x S draw f hb]
  rwa [sub_sub_cancel] at key

end

variable {I J : Type} [Fintype I] [Fintype J] [DecidableEq I] [DecidableEq J]

/-- **C200 (totally constrained tables).** Tables with a known total, drawn directly: the average over joint samples of any quantity between 0 and 1 (a cell
over the total, a parameter over 2, an indicator) is a consistent estimate of its mean under the joint posterior. -/
theorem C200_total_partial [Nonempty I] [Nonempty J] (ph : Phys ℝ ι (I × J → ℕ)) (z : (Fin 2 → ℝ) → ℝ × ℝ) (x : ι → ℝ) {q : ℝ × ℝ → ℝ≥0∞} {M : ℕ}
    (logLam : (Fin 2 → ℝ) → (ι → ℝ) → I × J → ℝ) (total : ℕ) (S : Finset (I × J → ℕ)) (hS : ∀ t, t ∈ S ↔ ∑ c, t c = total)
    (hlik : ∀ th y t, ph.nlt th y t = -logMultinomial t (logLam th y)) (hb : ph.bmax = 1) (hq : Spec.SignFreeWalk q) (hM : 0 < M)
    (hL : ∀ t ∈ S, Measurable (jointLp ph z x t)) (hlam : ∀ c, Measurable fun a : ℝ × ℝ => logLam ![a.1, a.2] x c) {B c : ℝ}
    (hB : ∀ t ∈ S, ∀ a ∈ Spec.Square, |jointLp ph z x t a| ≤ B) (hc0 : 0 < c) (hc : ∀ w : ℝ × ℝ, |w.1| < 2 → |w.2| < 2 → ENNReal.ofReal c ≤ q w)
    (f : ℝ × ℝ → (I × J → ℕ) → ℝ) (hf : ∀ t, Measurable fun a => f a t) (hf0 : ∀ a t, 0 ≤ f a t) (hf1 : ∀ a t, f a t ≤ 1) {eta : ℝ} (heta : 0 < eta)
    {a : ℝ × ℝ} (ha : a ∈ Spec.Square) {t : I × J → ℕ} (ht : ∑ c, t c = total) :
    let draw := fun (th : Fin 2 → ℝ) (_ t' : I × J → ℕ) => ENNReal.ofReal (Spec.condProb S t' (logLam th x))
    let mean := (Spec.jointPosteriorMean (Spec.jointWeight (fun b => (z ![b.1, b.2]).1) (fun b => ph.pot ![b.1, b.2] x)
          (fun b t => ph.nlt ![b.1, b.2] x t) 1) S fun a t => ENNReal.ofReal (f a t)).toReal
    Filter.Tendsto (fun N : ℕ => Spec.jointTotalMean ph z q M S draw f
      ({sum : ℝ | eta ≤ |sum / N - mean|}.indicator (1 : ℝ → ℝ≥0∞)) N (stateAt ph z x a t) 0) Filter.atTop (nhds 0) := by
  intro draw mean
  have htS : t ∈ S := (hS t).2 ht
  refine C200_consistent_partial ph z x S (fun th t' => ENNReal.ofReal (Spec.condProb S t' (logLam th x))) f hb hq hM hL hB hc0 hc
    (fun t' => measurable_condProb S _ hlam t') ?_ hf hf0 hf1 ?_ heta ha htS
  · intro b _
    rw [← ENNReal.ofReal_sum_of_nonneg fun t' _ => condProb_nonneg S _ t', condProb_sum S _ ⟨t, htS⟩, ENNReal.ofReal_one]
  · intro b _ t' ht'
    simp only [hlik, neg_neg]
    refine direct_invariant S (logLam ![b.1, b.2] x) (fun t => logMultinomial t (logLam ![b.1, b.2] x)) (total ! : ℝ) ?_ t' ht'
    intro t ht
    have hN := (hS t).1 ht
    rw [← C80_multinomial t (logLam ![b.1, b.2] x) S (fun t'' => by rw [hS, hN]), hN]

/-- **C200 (tables with known row sums).** The same for the product multinomial likelihood and tables drawn row by row. -/
theorem C200_rows_partial [Nonempty J] (ph : Phys ℝ ι (I × J → ℕ)) (z : (Fin 2 → ℝ) → ℝ × ℝ) (x : ι → ℝ) {q : ℝ × ℝ → ℝ≥0∞} {M : ℕ}
    (logLam : (Fin 2 → ℝ) → (ι → ℝ) → I × J → ℝ) (row : I → ℕ) (S : Finset (I × J → ℕ)) (hS : ∀ t, t ∈ S ↔ ∀ i, ∑ j, t (i, j) = row i)
    (hlik : ∀ th y t, ph.nlt th y t = -logProductMultinomial t (logLam th y)) (hb : ph.bmax = 1) (hq : Spec.SignFreeWalk q) (hM : 0 < M)
    (hL : ∀ t ∈ S, Measurable (jointLp ph z x t)) (hlam : ∀ c, Measurable fun a : ℝ × ℝ => logLam ![a.1, a.2] x c) {B c : ℝ}
    (hB : ∀ t ∈ S, ∀ a ∈ Spec.Square, |jointLp ph z x t a| ≤ B) (hc0 : 0 < c) (hc : ∀ w : ℝ × ℝ, |w.1| < 2 → |w.2| < 2 → ENNReal.ofReal c ≤ q w)
    (f : ℝ × ℝ → (I × J → ℕ) → ℝ) (hf : ∀ t, Measurable fun a => f a t) (hf0 : ∀ a t, 0 ≤ f a t) (hf1 : ∀ a t, f a t ≤ 1) {eta : ℝ} (heta : 0 < eta)
    {a : ℝ × ℝ} (ha : a ∈ Spec.Square) {t : I × J → ℕ} (ht : ∀ i, ∑ j, t (i, j) = row i) :
    let draw := fun (th : Fin 2 → ℝ) (_ t' : I × J → ℕ) => ENNReal.ofReal (Spec.condProb S t' (logLam th x))
    let mean := (Spec.jointPosteriorMean (Spec.jointWeight (fun b => (z ![b.1, b.2]).1) (fun b => ph.pot ![b.1, b.2] x)
          (fun b t => ph.nlt ![b.1, b.2] x t) 1) S fun a t => ENNReal.ofReal (f a t)).toReal
    Filter.Tendsto (fun N : ℕ => Spec.jointTotalMean ph z q M S draw f
      ({sum : ℝ | eta ≤ |sum / N - mean|}.indicator (1 : ℝ → ℝ≥0∞)) N (stateAt ph z x a t) 0) Filter.atTop (nhds 0) := by
  intro draw mean
  have htS : t ∈ S := (hS t).2 ht
  refine C200_consistent_partial ph z x S (fun th t' => ENNReal.ofReal (Spec.condProb S t' (logLam th x))) f hb hq hM hL hB hc0 hc
    (fun t' => measurable_condProb S _ hlam t') ?_ hf hf0 hf1 ?_ heta ha htS
  · intro b _
    rw [← ENNReal.ofReal_sum_of_nonneg fun t' _ => condProb_nonneg S _ t', condProb_sum S _ ⟨t, htS⟩, ENNReal.ofReal_one]
  · intro b _ t' ht'
    simp only [hlik, neg_neg]
    refine direct_invariant S (logLam ![b.1, b.2] x) (fun t => logProductMultinomial t (logLam ![b.1, b.2] x)) (∏ i, ((row i)! : ℝ)) ?_ t' ht'
    intro t ht
    have hN := (hS t).1 ht
    rw [← C80_product_multinomial t (logLam ![b.1, b.2] x) S (fun t'' => by rw [hS]; simp only [hN])]
    simp only [hN]

/-- `C200_total_partial` at work: one trip between two destinations; the frequency with which the joint samples send it to the near destination is a
consistent estimate of the posterior probability that it goes there. -/
example (v v' : NNReal) (hv : v ≠ 0) (hv' : v' ≠ 0) (M : ℕ) (hM : 0 < M) {eta : ℝ} (heta : 0 < eta) :
    let ph : Phys ℝ Unit (Unit × Bool → ℕ) := { twoPhys with bmax := 1 }
    let S : Finset (Unit × Bool → ℕ) := {tripNear, tripFar}
    let near := fun (_ : ℝ × ℝ) (t : Unit × Bool → ℕ) => if t ((), true) = 1 then (1 : ℝ) else 0
    let prob := (Spec.jointPosteriorMean (Spec.jointWeight (fun _ => 0) (fun _ => 0)
        (fun b t => -logMultinomial t (twoCosts ![b.1, b.2] fun _ => 0)) 1) S fun a t => ENNReal.ofReal (near a t)).toReal
    Filter.Tendsto (fun N : ℕ => Spec.jointTotalMean ph (fun _ => (0, 1)) (Spec.normalWalk v v') M S
        (fun th _ t' => ENNReal.ofReal (Spec.condProb S t' (twoCosts th fun _ => 0))) near
        ({sum : ℝ | eta ≤ |sum / N - prob|}.indicator (1 : ℝ → ℝ≥0∞)) N (stateAt ph (fun _ => (0, 1)) (fun _ => 0) (1, 1) tripFar) 0)
      Filter.atTop (nhds 0) := by
  intro ph S near prob
  have hlam : ∀ c, Measurable fun a : ℝ × ℝ => twoCosts ![a.1, a.2] (fun _ => 0) c := by
    intro c
    simpa using measurable_twoCosts 1 (fun _ => 0) c
  have hL : ∀ t ∈ S, Measurable (jointLp ph (fun _ => (0, 1)) (fun _ => 0) t) := by
    intro t _
    have h := measurable_twoCosts 1 (fun _ => 0)
    unfold jointLp
    simp only [ph, twoPhys, logMultinomial]
    refine (measurable_const.sub measurable_const).sub (Measurable.neg ((Finset.measurable_fun_sum _ fun c _ => ?_).sub_const _))
    exact ((h c).sub (Finset.measurable_fun_sum _ fun d _ => (h d).exp).log).const_mul _
  have hw := normalWalk_density hv hv'
  have hsf : Spec.SignFreeWalk (Spec.normalWalk v v') := ⟨hw.measurable, hw.total, fun w => by simp [Spec.normalWalk], fun w => by simp [Spec.normalWalk]⟩
  have hB : ∀ t ∈ S, ∀ a ∈ Spec.Square, |jointLp ph (fun _ => (0, 1)) (fun _ => 0) t a| ≤ 3 := fun t ht a ha => twoCosts_bound a ha t ht
  exact C200_total_partial ph (fun _ => (0, 1)) (fun _ => 0) twoCosts 1 S trips_mem (fun _ _ _ => rfl) rfl hsf hM hL hlam hB (normalLow_pos hv hv')
    (normalLow_le hv hv') near (fun _ => measurable_const) (fun _ t => by simp only [near]; split <;> norm_num)
    (fun _ t => by simp only [near]; split <;> norm_num) heta (by simp [Spec.Square]) ((trips_mem tripFar).1 (by simp))

end GeNSIT
