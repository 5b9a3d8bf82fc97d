/-
The potential as a function of the Cartesian position, its gradient and its second
derivatives.
-/
import Verif.Props.Rotation
import Verif.Lemmas.Harmonic
import Mathlib.Analysis.SpecialFunctions.Sqrt
import Mathlib.Analysis.Calculus.Deriv.ZPow
import Mathlib.Analysis.Calculus.Deriv.Polynomial

set_option linter.unusedSectionVars false

namespace Verif.Props

open Verif.Geo Verif.Spec Verif.Legendre Polynomial

/-! ### The differential equation of the Legendre polynomials -/

theorem rod_ode (n j : ℕ) : (X ^ 2 - 1) * rod (j + 2) n +
    2 * ((j : ℝ[X]) + 1 - (n : ℝ[X])) * (X * rod (j + 1) n) +
    ((j : ℝ[X]) + 1) * ((j : ℝ[X]) - 2 * (n : ℝ[X])) * rod j n = 0 := by
  have h0 : (X ^ 2 - 1) * rod 1 n - 2 * (n : ℝ[X]) * (X * rod 0 n) = 0 := by
    show (X ^ 2 - 1) * derivative ((X ^ 2 - 1) ^ n) - 2 * (n : ℝ[X]) * (X * (X ^ 2 - 1) ^ n) = 0
    cases n with
    | zero => simp
    | succ n =>
      rw [derivative_pow_succ]
      simp only [derivative_sub, derivative_X_sq, derivative_one, sub_zero, map_ofNat, map_add, map_natCast, map_one]
      push_cast
      ring
  induction j with
  | zero =>
    have h := congrArg derivative h0
    simp only [derivative_sub, derivative_mul, derivative_X_sq, derivative_one, derivative_zero, derivative_X,
      derivative_natCast, ← rod_succ, sub_zero, derivative_ofNat, map_ofNat] at h
    push_cast
    linear_combination h
  | succ j ih =>
    have h := congrArg derivative ih
    simp only [derivative_add, derivative_sub, derivative_mul, derivative_X_sq, derivative_one, derivative_zero,
      derivative_X, derivative_natCast, ← rod_succ, sub_zero, derivative_ofNat, map_ofNat] at h
    push_cast at h ⊢
    linear_combination h

/-- `(1 - x²) Q'' - 2 (m + 1) x Q' + (n - m) (n + m + 1) Q = 0` for the `m`-th derivative `Q` of
the Legendre polynomial. -/
theorem dP_ode (n m : ℕ) : (1 - X ^ 2) * dP (m + 2) n - 2 * ((m : ℝ[X]) + 1) * (X * dP (m + 1) n) +
    ((n : ℝ[X]) - (m : ℝ[X])) * ((n : ℝ[X]) + (m : ℝ[X]) + 1) * dP m n = 0 := by
  have h := rod_ode n (n + m)
  rw [show n + m + 2 = n + (m + 2) by ring, show n + m + 1 = n + (m + 1) by ring, rod_eq_dP, rod_eq_dP,
    rod_eq_dP] at h
  apply C_cancel (fac_ne n)
  push_cast at h
  linear_combination -h

/-! ### Gradients of functions of the position -/

/-- `G` is the gradient of `f` at `v`: along each differentiable curve through `v` the derivative
is the scalar product with the velocity. -/
def HasGrad (f : V3 ℝ → ℝ) (G v : V3 ℝ) : Prop :=
  ∀ (c : ℝ → V3 ℝ) (d : V3 ℝ) (t : ℝ), c t = v → HasDeriv3 c d t →
    HasDerivAt (fun s => f (c s)) (inner3 G d) t

theorem HasGrad.mul {f g : V3 ℝ → ℝ} {F G v : V3 ℝ} (hf : HasGrad f F v) (hg : HasGrad g G v) :
    HasGrad (fun w => f w * g w)
      ⟨F.x * g v + f v * G.x, F.y * g v + f v * G.y, F.z * g v + f v * G.z⟩ v := by
  intro c d t hc hd
  refine ((hf c d t hc hd).mul (hg c d t hc hd)).congr_deriv ?_
  simp only [inner3, hc]
  ring

theorem HasGrad.add {f g : V3 ℝ → ℝ} {F G v : V3 ℝ} (hf : HasGrad f F v) (hg : HasGrad g G v) :
    HasGrad (fun w => f w + g w) ⟨F.x + G.x, F.y + G.y, F.z + G.z⟩ v := by
  intro c d t hc hd
  refine ((hf c d t hc hd).add (hg c d t hc hd)).congr_deriv ?_
  simp only [inner3]
  ring

theorem HasGrad.const_mul {f : V3 ℝ → ℝ} {F v : V3 ℝ} (a : ℝ) (hf : HasGrad f F v) :
    HasGrad (fun w => a * f w) ⟨a * F.x, a * F.y, a * F.z⟩ v := by
  intro c d t hc hd
  refine ((hf c d t hc hd).const_mul a).congr_deriv ?_
  simp only [inner3]
  ring

theorem HasGrad.sum {ι : Type} (s : Finset ι) {f : ι → V3 ℝ → ℝ} {F : ι → V3 ℝ} {v : V3 ℝ}
    (h : ∀ i ∈ s, HasGrad (f i) (F i) v) :
    HasGrad (fun w => ∑ i ∈ s, f i w) ⟨∑ i ∈ s, (F i).x, ∑ i ∈ s, (F i).y, ∑ i ∈ s, (F i).z⟩ v := by
  intro c d t hc hd
  refine (HasDerivAt.fun_sum (fun i hi => h i hi c d t hc hd)).congr_deriv ?_
  simp only [inner3, Finset.sum_mul, ← Finset.sum_add_distrib]

theorem HasGrad.congr {f : V3 ℝ → ℝ} {F G v : V3 ℝ} (hf : HasGrad f F v) (h : F = G) : HasGrad f G v := h ▸ hf

theorem hasGrad_x (v : V3 ℝ) : HasGrad (fun w => w.x) ⟨1, 0, 0⟩ v := by
  intro c d t _ hd
  exact hd.1.congr_deriv (by simp [inner3])

theorem hasGrad_y (v : V3 ℝ) : HasGrad (fun w => w.y) ⟨0, 1, 0⟩ v := by
  intro c d t _ hd
  exact hd.2.1.congr_deriv (by simp [inner3])

theorem hasGrad_z (v : V3 ℝ) : HasGrad (fun w => w.z) ⟨0, 0, 1⟩ v := by
  intro c d t _ hd
  exact hd.2.2.congr_deriv (by simp [inner3])

/-- The gradient is unique. -/
theorem HasGrad.unique {f : V3 ℝ → ℝ} {F G v : V3 ℝ} (hf : HasGrad f F v) (hg : HasGrad f G v) : F = G := by
  have key : ∀ d : V3 ℝ, inner3 F d = inner3 G d := by
    intro d
    have hd : HasDeriv3 (fun s => (⟨v.x + s * d.x, v.y + s * d.y, v.z + s * d.z⟩ : V3 ℝ)) d 0 := by
      refine ⟨?_, ?_, ?_⟩ <;>
      · refine (((hasDerivAt_id (0 : ℝ)).mul_const _).const_add _).congr_deriv ?_
        simp
    have hv : (⟨v.x + 0 * d.x, v.y + 0 * d.y, v.z + 0 * d.z⟩ : V3 ℝ) = v := by
      refine V3.ext' ?_ ?_ ?_ <;> simp
    exact (hf _ d 0 hv hd).unique (hg _ d 0 hv hd)
  have k1 := key ⟨1, 0, 0⟩
  have k2 := key ⟨0, 1, 0⟩
  have k3 := key ⟨0, 0, 1⟩
  simp only [inner3, mul_one, mul_zero, add_zero, zero_add] at k1 k2 k3
  exact V3.ext' k1 k2 k3

/-! ### Factors of the terms -/

/-- Distance from the centre. -/
noncomputable def rad3 (v : V3 ℝ) : ℝ := Real.sqrt (inner3 v v)

theorem rad3_pos {v : V3 ℝ} (h : 0 < inner3 v v) : 0 < rad3 v := Real.sqrt_pos.mpr h

theorem rad3_sq {v : V3 ℝ} : rad3 v * rad3 v = inner3 v v :=
  Real.mul_self_sqrt (by simp only [inner3]; nlinarith [mul_self_nonneg v.x, mul_self_nonneg v.y, mul_self_nonneg v.z])

theorem hasGrad_rad {v : V3 ℝ} (h : 0 < inner3 v v) :
    HasGrad rad3 ⟨v.x / rad3 v, v.y / rad3 v, v.z / rad3 v⟩ v := by
  intro c d t hc hd
  obtain ⟨h1, h2, h3⟩ := hd
  have k := ((h1.mul h1).add (h2.mul h2)).add (h3.mul h3)
  have k' := k.sqrt (by
    simp only [Pi.add_apply, Pi.mul_apply, hc]
    exact h.ne')
  refine HasDerivAt.congr_deriv (f := fun s => rad3 (c s)) k' ?_
  have hr := (rad3_pos h).ne'
  simp only [Pi.add_apply, Pi.mul_apply, hc]
  rw [show v.x * v.x + v.y * v.y + v.z * v.z = inner3 v v from rfl, show Real.sqrt (inner3 v v) = rad3 v from rfl]
  simp only [inner3]
  field_simp
  ring

/-- `r^k Q(z/r)` -/
noncomputable def radial (k : ℤ) (Q : ℝ[X]) (v : V3 ℝ) : ℝ := rad3 v ^ k * Q.eval (v.z / rad3 v)

/-- `k Q - x Q'` -/
noncomputable def eulerP (k : ℤ) (Q : ℝ[X]) : ℝ[X] := C (k : ℝ) * Q - X * derivative Q

theorem hasGrad_radial (k : ℤ) (Q : ℝ[X]) {v : V3 ℝ} (h : 0 < inner3 v v) :
    HasGrad (radial k Q) ⟨v.x * radial (k - 2) (eulerP k Q) v, v.y * radial (k - 2) (eulerP k Q) v,
      v.z * radial (k - 2) (eulerP k Q) v + radial (k - 1) (derivative Q) v⟩ v := by
  intro c d t hc hd
  have hr := (rad3_pos h).ne'
  have h1 := hasGrad_rad h c d t hc hd
  have h2 := (hasDerivAt_zpow k (rad3 (c t)) (Or.inl (by rw [hc]; exact hr))).comp t h1
  have h3 := (hd.2.2).div h1 (by rw [hc]; exact hr)
  have h4 := (Q.hasDerivAt ((c t).z / rad3 (c t))).comp t h3
  refine (h2.mul h4).congr_deriv ?_
  simp only [hc, inner3, radial, eulerP, eval_sub, eval_mul, eval_C, eval_X, Function.comp, Pi.div_apply]
  rw [show k - 2 = k - 1 - 1 by ring]
  simp only [zpow_sub_one₀ hr]
  generalize eval (v.z / rad3 v) Q = q0
  generalize eval (v.z / rad3 v) (derivative Q) = q1
  generalize rad3 v ^ k = w
  generalize rad3 v = r at *
  field_simp
  ring

/-- `g Re (x + i y)^m + h Im (x + i y)^m` -/
noncomputable def sect (g h : ℝ) (m : ℕ) (v : V3 ℝ) : ℝ :=
  g * ((⟨v.x, v.y⟩ : ℂ) ^ m).re + h * ((⟨v.x, v.y⟩ : ℂ) ^ m).im

theorem sect_euler (g h : ℝ) (m : ℕ) (v : V3 ℝ) :
    v.x * sect g h m v + v.y * sect h (-g) m v = sect g h (m + 1) v := by
  simp only [sect, pow_succ, Complex.mul_re, Complex.mul_im]
  ring

theorem hasGrad_sect (g h : ℝ) (m : ℕ) (v : V3 ℝ) :
    HasGrad (sect g h m) ⟨m * sect g h (m - 1) v, m * sect h (-g) (m - 1) v, 0⟩ v := by
  induction m generalizing g h with
  | zero =>
    intro c d t hc hd
    simp only [sect, pow_zero, Complex.one_re, Complex.one_im, Nat.cast_zero, zero_mul, inner3, add_zero]
    exact hasDerivAt_const t _
  | succ m ih =>
    have e : sect g h (m + 1) = fun w => w.x * sect g h m w + w.y * sect h (-g) m w := by
      funext w
      exact (sect_euler g h m w).symm
    rw [e]
    refine (((hasGrad_x v).mul (ih g h)).add ((hasGrad_y v).mul (ih h (-g)))).congr ?_
    have hn : sect (-g) (-h) (m - 1) v = -sect g h (m - 1) v := by simp only [sect]; ring
    cases m with
    | zero => refine V3.ext' ?_ ?_ ?_ <;> simp
    | succ m =>
      have e1 := sect_euler g h m v
      have e2 := sect_euler h (-g) m v
      simp only [Nat.add_sub_cancel] at hn ⊢
      rw [hn] at e2
      refine V3.ext' ?_ ?_ ?_ <;> simp only [Nat.add_sub_cancel] <;> push_cast
      · linear_combination ((m : ℝ) + 1) * e1
      · rw [hn]; linear_combination ((m : ℝ) + 1) * e2
      · ring

/-! ### Terms, their gradients and second derivatives -/

/-- One term `(g Re (x+iy)^m + h Im (x+iy)^m) r^k Q(z/r)`. -/
noncomputable def term (g h : ℝ) (m : ℕ) (k : ℤ) (Q : ℝ[X]) (v : V3 ℝ) : ℝ := sect g h m v * radial k Q v

noncomputable def termGrad (g h : ℝ) (m : ℕ) (k : ℤ) (Q : ℝ[X]) (v : V3 ℝ) : V3 ℝ :=
  ⟨m * sect g h (m - 1) v * radial k Q v + sect g h m v * (v.x * radial (k - 2) (eulerP k Q) v),
   m * sect h (-g) (m - 1) v * radial k Q v + sect g h m v * (v.y * radial (k - 2) (eulerP k Q) v),
   sect g h m v * (v.z * radial (k - 2) (eulerP k Q) v + radial (k - 1) (derivative Q) v)⟩

theorem hasGrad_term (g h : ℝ) (m : ℕ) (k : ℤ) (Q : ℝ[X]) {v : V3 ℝ} (hv : 0 < inner3 v v) :
    HasGrad (term g h m k Q) (termGrad g h m k Q v) v := by
  refine ((hasGrad_sect g h m v).mul (hasGrad_radial k Q hv)).congr ?_
  refine V3.ext' ?_ ?_ ?_ <;> simp only [termGrad]
  ring

theorem eulerP_deriv (k : ℤ) (Q : ℝ[X]) : eulerP (k - 1) (derivative Q) = derivative (eulerP k Q) := by
  simp only [eulerP, derivative_sub, derivative_mul, derivative_C, derivative_X]
  push_cast
  simp only [map_sub, map_one]
  ring

/-- Second derivatives: `xx`, `yy`, `zz`, `xy`, `xz`, `yz`. -/
structure Hess where
  xx : ℝ
  yy : ℝ
  zz : ℝ
  xy : ℝ
  xz : ℝ
  yz : ℝ

/-- `r^(k-2) E`, `r^(k-3) E'`, `r^(k-4) ((k-2) E - x E')` -/
noncomputable def w2 (k : ℤ) (Q : ℝ[X]) (v : V3 ℝ) : ℝ := radial (k - 2) (eulerP k Q) v
noncomputable def w3 (k : ℤ) (Q : ℝ[X]) (v : V3 ℝ) : ℝ := radial (k - 3) (derivative (eulerP k Q)) v
noncomputable def w4 (k : ℤ) (Q : ℝ[X]) (v : V3 ℝ) : ℝ := radial (k - 4) (eulerP (k - 2) (eulerP k Q)) v

noncomputable def termHess (g h : ℝ) (m : ℕ) (k : ℤ) (Q : ℝ[X]) (v : V3 ℝ) : Hess where
  xx := m * ((m - 1 : ℕ) * sect g h (m - 1 - 1) v) * radial k Q v +
    2 * (m * sect g h (m - 1) v) * (v.x * w2 k Q v) + sect g h m v * (w2 k Q v + v.x * (v.x * w4 k Q v))
  yy := -(m * ((m - 1 : ℕ) * sect g h (m - 1 - 1) v) * radial k Q v) +
    2 * (m * sect h (-g) (m - 1) v) * (v.y * w2 k Q v) + sect g h m v * (w2 k Q v + v.y * (v.y * w4 k Q v))
  zz := sect g h m v * (w2 k Q v + v.z * (v.z * w4 k Q v + w3 k Q v) + (v.z * w3 k Q v +
    radial (k - 2) (derivative (derivative Q)) v))
  xy := m * ((m - 1 : ℕ) * sect h (-g) (m - 1 - 1) v) * radial k Q v +
    m * sect g h (m - 1) v * (v.y * w2 k Q v) + m * sect h (-g) (m - 1) v * (v.x * w2 k Q v) +
    sect g h m v * (v.x * (v.y * w4 k Q v))
  xz := m * sect g h (m - 1) v * (v.z * w2 k Q v + radial (k - 1) (derivative Q) v) +
    sect g h m v * (v.x * (v.z * w4 k Q v + w3 k Q v))
  yz := m * sect h (-g) (m - 1) v * (v.z * w2 k Q v + radial (k - 1) (derivative Q) v) +
    sect g h m v * (v.y * (v.z * w4 k Q v + w3 k Q v))

def Hess.rx (H : Hess) : V3 ℝ := ⟨H.xx, H.xy, H.xz⟩
def Hess.ry (H : Hess) : V3 ℝ := ⟨H.xy, H.yy, H.yz⟩
def Hess.rz (H : Hess) : V3 ℝ := ⟨H.xz, H.yz, H.zz⟩

theorem sect_neg (g h : ℝ) (m : ℕ) (v : V3 ℝ) : sect (-g) (-h) m v = -sect g h m v := by
  simp only [sect]; ring

theorem hasGrad_termGrad (g h : ℝ) (m : ℕ) (k : ℤ) (Q : ℝ[X]) {v : V3 ℝ} (hv : 0 < inner3 v v) :
    HasGrad (fun w => (termGrad g h m k Q w).x) (termHess g h m k Q v).rx v ∧
    HasGrad (fun w => (termGrad g h m k Q w).y) (termHess g h m k Q v).ry v ∧
    HasGrad (fun w => (termGrad g h m k Q w).z) (termHess g h m k Q v).rz v := by
  have hA := hasGrad_sect g h m v
  have hA1 := (hasGrad_sect g h (m - 1) v).const_mul (m : ℝ)
  have hB1 := (hasGrad_sect h (-g) (m - 1) v).const_mul (m : ℝ)
  have hW := hasGrad_radial k Q hv
  have hW2 := hasGrad_radial (k - 2) (eulerP k Q) hv
  have hW1 := hasGrad_radial (k - 1) (derivative Q) hv
  rw [eulerP_deriv, show k - 1 - 2 = k - 3 by ring, show k - 1 - 1 = k - 2 by ring] at hW1
  rw [show k - 2 - 2 = k - 4 by ring, show k - 2 - 1 = k - 3 by ring] at hW2
  rw [sect_neg] at hB1
  refine ⟨((hA1.mul hW).add (hA.mul ((hasGrad_x v).mul hW2))).congr ?_,
    ((hB1.mul hW).add (hA.mul ((hasGrad_y v).mul hW2))).congr ?_,
    (hA.mul (((hasGrad_z v).mul hW2).add hW1)).congr ?_⟩ <;>
  refine V3.ext' ?_ ?_ ?_ <;> simp only [termHess, Hess.rx, Hess.ry, Hess.rz, w2, w3, w4] <;> ring

/-- Laplace's equation for one term. -/
theorem termHess_trace (g h : ℝ) (m : ℕ) (k : ℤ) (Q : ℝ[X])
    (ode : (1 - X ^ 2) * derivative (derivative Q) - 2 * ((m : ℝ[X]) + 1) * (X * derivative Q) +
      C ((k : ℝ) * (k + 2 * m + 1)) * Q = 0) {v : V3 ℝ} (hv : 0 < inner3 v v) :
    (termHess g h m k Q v).xx + (termHess g h m k Q v).yy + (termHess g h m k Q v).zz = 0 := by
  have he : (m : ℝ) * (v.x * sect g h (m - 1) v + v.y * sect h (-g) (m - 1) v) = m * sect g h m v := by
    cases m with
    | zero => simp
    | succ m => rw [Nat.add_sub_cancel, sect_euler]
  have hr := (rad3_pos hv).ne'
  have o := congrArg (eval (v.z / rad3 v)) ode
  simp only [eval_add, eval_sub, eval_mul, eval_pow, eval_X, eval_one, eval_C, eval_natCast, eval_ofNat, eval_zero] at o
  have hq : rad3 v * rad3 v = v.x * v.x + v.y * v.y + v.z * v.z := rad3_sq
  have hs : (termHess g h m k Q v).xx + (termHess g h m k Q v).yy + (termHess g h m k Q v).zz =
      sect g h m v * ((2 * m + 3) * w2 k Q v + (rad3 v * rad3 v) * w4 k Q v + 2 * v.z * w3 k Q v +
        radial (k - 2) (derivative (derivative Q)) v) := by
    rw [hq]
    simp only [termHess]
    linear_combination 2 * w2 k Q v * he
  rw [hs]
  apply mul_eq_zero_of_right
  simp only [w2, w3, w4, radial]
  rw [show k - 4 = k - 2 - 1 - 1 by ring, show k - 3 = k - 2 - 1 by ring]
  simp only [zpow_sub_one₀ hr, eulerP, eval_sub, eval_mul, eval_C, eval_X, derivative_sub, derivative_mul, derivative_C,
    derivative_X, eval_add, eval_zero, eval_one]
  generalize eval (v.z / rad3 v) Q = q0 at *
  generalize eval (v.z / rad3 v) (derivative Q) = q1 at *
  generalize eval (v.z / rad3 v) (derivative (derivative Q)) = q2 at *
  generalize rad3 v ^ (k - 2) = w
  have hu : v.z = v.z / rad3 v * rad3 v := by field_simp
  generalize v.z / rad3 v = u at *
  rw [hu]
  push_cast
  generalize rad3 v = r at *
  field_simp
  linear_combination w * o

/-! ### The potential -/

/-- Power of the radius of the term of degree `n` and order `m` (the factor of the order is
`(x + i y)^m`). -/
def expo (int : Bool) (n m : ℕ) : ℤ := if int then -(n : ℤ) - 1 - m else n - m

/-- Constant factor of the term. -/
noncomputable def fact (int : Bool) (a : ℝ) (n m : ℕ) : ℝ :=
  a * (if int then a ^ (n + 1) else (a ^ n)⁻¹) * schmidtNorm n m

/-- The potential as a function of the Cartesian position. -/
noncomputable def solid (int : Bool) (a : ℝ) (N : ℕ) (g h : ℕ → ℕ → ℝ) (v : V3 ℝ) : ℝ :=
  ∑ n ∈ Finset.range (N + 1), ∑ m ∈ Finset.range (n + 1),
    fact int a n m * term (g n m) (h n m) m (expo int n m) (dP m n) v

noncomputable def solidGrad (int : Bool) (a : ℝ) (N : ℕ) (g h : ℕ → ℕ → ℝ) (v : V3 ℝ) : V3 ℝ :=
  ⟨∑ n ∈ Finset.range (N + 1), ∑ m ∈ Finset.range (n + 1),
    fact int a n m * (termGrad (g n m) (h n m) m (expo int n m) (dP m n) v).x,
   ∑ n ∈ Finset.range (N + 1), ∑ m ∈ Finset.range (n + 1),
    fact int a n m * (termGrad (g n m) (h n m) m (expo int n m) (dP m n) v).y,
   ∑ n ∈ Finset.range (N + 1), ∑ m ∈ Finset.range (n + 1),
    fact int a n m * (termGrad (g n m) (h n m) m (expo int n m) (dP m n) v).z⟩

/-- Sum over the degrees and orders. -/
noncomputable def sumNM (N : ℕ) (f : ℕ → ℕ → ℝ) : ℝ :=
  ∑ n ∈ Finset.range (N + 1), ∑ m ∈ Finset.range (n + 1), f n m

noncomputable def solidHess (int : Bool) (a : ℝ) (N : ℕ) (g h : ℕ → ℕ → ℝ) (v : V3 ℝ) : Hess :=
  let H := fun n m => termHess (g n m) (h n m) m (expo int n m) (dP m n) v
  ⟨sumNM N (fun n m => fact int a n m * (H n m).xx), sumNM N (fun n m => fact int a n m * (H n m).yy),
   sumNM N (fun n m => fact int a n m * (H n m).zz), sumNM N (fun n m => fact int a n m * (H n m).xy),
   sumNM N (fun n m => fact int a n m * (H n m).xz), sumNM N (fun n m => fact int a n m * (H n m).yz)⟩

theorem hasGrad_solid (int : Bool) (a : ℝ) (N : ℕ) (g h : ℕ → ℕ → ℝ) {v : V3 ℝ} (hv : 0 < inner3 v v) :
    HasGrad (solid int a N g h) (solidGrad int a N g h v) v :=
  HasGrad.sum _ (fun _ _ => HasGrad.sum _ (fun _ _ => (hasGrad_term _ _ _ _ _ hv).const_mul _))

theorem hasGrad_solidGrad (int : Bool) (a : ℝ) (N : ℕ) (g h : ℕ → ℕ → ℝ) {v : V3 ℝ} (hv : 0 < inner3 v v) :
    HasGrad (fun w => (solidGrad int a N g h w).x) (solidHess int a N g h v).rx v ∧
    HasGrad (fun w => (solidGrad int a N g h w).y) (solidHess int a N g h v).ry v ∧
    HasGrad (fun w => (solidGrad int a N g h w).z) (solidHess int a N g h v).rz v :=
  ⟨(HasGrad.sum (Finset.range (N + 1)) (fun n _ => HasGrad.sum (Finset.range (n + 1)) (fun m _ =>
    ((hasGrad_termGrad (g n m) (h n m) m (expo int n m) (dP m n) hv).1).const_mul (fact int a n m)))).congr rfl,
   (HasGrad.sum (Finset.range (N + 1)) (fun n _ => HasGrad.sum (Finset.range (n + 1)) (fun m _ =>
    ((hasGrad_termGrad (g n m) (h n m) m (expo int n m) (dP m n) hv).2.1).const_mul (fact int a n m)))).congr rfl,
   (HasGrad.sum (Finset.range (N + 1)) (fun n _ => HasGrad.sum (Finset.range (n + 1)) (fun m _ =>
    ((hasGrad_termGrad (g n m) (h n m) m (expo int n m) (dP m n) hv).2.2).const_mul (fact int a n m)))).congr rfl⟩

theorem solidHess_trace (int : Bool) (a : ℝ) (N : ℕ) (g h : ℕ → ℕ → ℝ) {v : V3 ℝ} (hv : 0 < inner3 v v) :
    (solidHess int a N g h v).xx + (solidHess int a N g h v).yy + (solidHess int a N g h v).zz = 0 := by
  simp only [solidHess, sumNM, ← Finset.sum_add_distrib, ← mul_add]
  refine Finset.sum_eq_zero (fun n _ => Finset.sum_eq_zero (fun m _ => mul_eq_zero_of_right _ ?_))
  refine termHess_trace _ _ _ _ _ ?_ hv
  have h := dP_ode n m
  rw [dP_succ, dP_succ] at h
  have e : C (((expo int n m : ℤ) : ℝ) * ((expo int n m : ℤ) + 2 * m + 1)) =
      ((n : ℝ[X]) - (m : ℝ[X])) * ((n : ℝ[X]) + (m : ℝ[X]) + 1) := by
    cases int <;> simp only [expo, if_true, if_false, Bool.false_eq_true] <;> push_cast <;>
      simp only [map_mul, map_add, map_sub, map_neg, map_natCast, map_one, map_ofNat] <;> ring
  rw [e]
  exact h

/-- Position in terms of the radius and the angles in radians. -/
noncomputable def placeAt (r φ lon : ℝ) : V3 ℝ :=
  ⟨r * Real.cos φ * Real.cos lon, r * Real.cos φ * Real.sin lon, r * Real.sin φ⟩

theorem rad3_place {r : ℝ} (hr : 0 < r) (φ lon : ℝ) : rad3 (placeAt r φ lon) = r := by
  have h1 := Real.sin_sq_add_cos_sq φ
  have h2 := Real.sin_sq_add_cos_sq lon
  have : inner3 (placeAt r φ lon) (placeAt r φ lon) = r ^ 2 := by
    simp only [inner3, placeAt]
    linear_combination r ^ 2 * Real.cos φ ^ 2 * h2 + r ^ 2 * h1
  rw [rad3, this, Real.sqrt_sq hr.le]

theorem sect_place (g h : ℝ) (m : ℕ) (r φ lon : ℝ) : sect g h m (placeAt r φ lon) =
    (r * Real.cos φ) ^ m * (g * Real.cos (m * lon) + h * Real.sin (m * lon)) := by
  have e : (⟨(placeAt r φ lon).x, (placeAt r φ lon).y⟩ : ℂ) =
      ((r * Real.cos φ : ℝ) : ℂ) * (Complex.cos lon + Complex.sin lon * Complex.I) := by
    rw [← Complex.ofReal_cos, ← Complex.ofReal_sin]
    apply Complex.ext <;> simp only [placeAt, Complex.mul_re, Complex.mul_im, Complex.add_re, Complex.add_im,
      Complex.ofReal_re, Complex.ofReal_im, Complex.I_re, Complex.I_im] <;> ring
  unfold sect
  rw [e, mul_pow, Complex.cos_add_sin_mul_I_pow, ← Complex.ofReal_pow]
  have e2 : (m : ℂ) * (lon : ℂ) = ((m * lon : ℝ) : ℂ) := by push_cast; ring
  rw [e2, ← Complex.ofReal_cos, ← Complex.ofReal_sin]
  simp only [Complex.mul_re, Complex.mul_im, Complex.add_re, Complex.add_im,
      Complex.ofReal_re, Complex.ofReal_im, Complex.I_re, Complex.I_im]
  rw [mul_pow]
  ring

/-- The potential of the expansion is the function of the Cartesian position. -/
theorem potential_solid (int : Bool) {a r : ℝ} (ha : 0 < a) (hr : 0 < r) (N : ℕ) (g h : ℕ → ℕ → ℝ) (φ lon : ℝ) :
    potential int a N g h r φ lon = solid int a N g h (placeAt r φ lon) := by
  unfold potential solid
  rw [Finset.mul_sum]
  refine Finset.sum_congr rfl (fun n _ => ?_)
  rw [Finset.mul_sum, Finset.mul_sum]
  refine Finset.sum_congr rfl (fun m hm => ?_)
  have hmn : m ≤ n := by simpa [Nat.lt_succ_iff] using hm
  have hz : (placeAt r φ lon).z / r = Real.sin φ := by
    show r * Real.sin φ / r = _
    field_simp
  simp only [term, radial, sect_place, rad3_place hr, hz, schmidtP, fact, mul_pow]
  rw [show derivative^[m] (legP n) = dP m n from rfl]
  have key : (if int then (a / r) ^ (n + 1) else (r / a) ^ n) =
      (if int then a ^ (n + 1) else (a ^ n)⁻¹) * (r ^ m * r ^ expo int n m) := by
    cases int
    · simp only [expo, Bool.false_eq_true, if_false]
      rw [← zpow_natCast r m, ← zpow_add₀ hr.ne', show (m : ℤ) + (n - m) = n by ring, zpow_natCast, div_pow]
      ring
    · simp only [expo, if_true]
      rw [← zpow_natCast r m, ← zpow_add₀ hr.ne', show (m : ℤ) + (-(n : ℤ) - 1 - m) = -((n + 1 : ℕ) : ℤ) by push_cast; ring,
        zpow_neg, zpow_natCast, div_pow]
      ring
  rw [key]
  ring

end Verif.Props
