import Verif.Lemmas.RangeCheckRun
import Verif.Lemmas.SnarkExample
import Verif.Props.Hadamard

set_option linter.unusedSectionVars false

/-
Theorems about the range-check SNARK (C45).
-/

namespace VO
open Spec
open Polynomial (X toLaurent)
open LaurentPolynomial

variable {F G1 G2 GT : Type} [Field F] [DecidableEq F]
  [AddCommGroup G1] [Module F G1] [DecidableEq G1] [AddCommGroup G2] [Module F G2]
  [AddCommGroup GT] [Module F GT] [DecidableEq GT]

theorem res_bind_ok {α β : Type} {x : Res α} {f : α → Res β} {b : β} (h : (x >>= f) = .ok b) :
    ∃ a, x = .ok a ∧ f a = .ok b := by
  cases x with
  | error e => cases h
  | ok a => exact ⟨a, rfl, h⟩

/-- A checked convolution of the second pair is only possible when `ω ≠ 0`. -/
theorem rc_pair2 (s : RcRun F) (hN : 1 ≤ s.cs.lookupSize) (d : RcDerived F)
    (h : zeroPad (naiveProduct s.cs.n s.omega
        (fun i => -rangeIndex 1 s.cs.lookupSize (minusI64 i 1),
         fun i => rangeIndex 1 s.cs.lookupSize (minusI64 i 1))) (2 * s.cs.n + 1)
      = .ok (expressionVector (2 * s.cs.n + 1) (fun i =>
        (fun i => -power s.omega (s.cs.lookupSize - 1)
          * vectorIndex d.vNN (minusI64 i (2 - s.cs.lookupSize))) (i - s.cs.n)))) :
    s.omega ≠ 0 := by
  intro hω
  have h1 := s.cs.N_le
  have := conv_coeff s.cs.n s.omega
    (fun i => -rangeIndex 1 s.cs.lookupSize (minusI64 i 1),
         fun i => rangeIndex 1 s.cs.lookupSize (minusI64 i 1))
    (fun i => -power s.omega (s.cs.lookupSize - 1)
          * vectorIndex d.vNN (minusI64 i (2 - s.cs.lookupSize))) h 0 (by omega) (by omega)
  have e : ((s.cs.n : ℤ) + 1) = ((s.cs.n + 1 : ℕ) : ℤ) := by push_cast; rfl
  have dg : (geomPoly (1 : F) s.cs.lookupSize).degree < ((s.cs.n + 1 : ℕ) : WithBot ℕ) :=
    degLt_mono (degree_geomPoly_lt 1 _) (by omega)
  dsimp only at this
  rw [e, polyOf_expressionVector (rep_range1 (F := F) s.cs.lookupSize) (s.cs.n + 1) dg,
    polyOf_expressionVector (rep_range1 (F := F) s.cs.lookupSize).neg (s.cs.n + 1) (degLt_neg dg),
    lcoeff_zero_mul s.omega _ _ (s.cs.n + 1) (degLt_neg dg), hω] at this
  rw [Finset.sum_eq_single 0 (by
    intro i _ hi; rw [zero_pow hi, zero_mul]) (by
    intro h; simp at h)] at this
  have hp : power (0 : F) ((s.cs.lookupSize : ℤ) - 1) = 0 := by
    obtain ⟨k, hk⟩ : ∃ k : ℕ, (s.cs.lookupSize : ℤ) - 1 = k := ⟨s.cs.lookupSize - 1, by omega⟩
    rw [hk]
    cases k with
    | zero => simp [power]
    | succ k => rw [power_natCast (Or.inl (by omega)), zero_pow (by omega)]
  rw [hp, Polynomial.coeff_neg, coeff_geomPoly, if_pos (by omega)] at this
  simp at this

/-- The convolution check of the seventh pair fails unless `α² ω δ = 0`, `δ` the last entry of the
vector of running sums. -/
theorem rc_pair7 (s : RcRun F) (hn : 2 ≤ s.cs.n) (hω : s.omega ≠ 0)
    (hl : s.rt.length = s.cs.n + 1)
    (h : zeroPad (naiveProduct s.cs.n s.omega
        (fun i => -power s.alpha 2 * rangeIndex 1 s.cs.n (minusI64 i 1),
         fun i => vectorIndex s.rt (minusI64 i 1) - vectorIndex s.rt (minusI64 i 2)))
        (2 * s.cs.n + 1)
      = .ok (expressionVector (2 * s.cs.n + 1) (fun i =>
        (fun i => (-power s.alpha 2 * power s.omega (s.cs.n - 1))
          * vectorIndex (vectorPowerMul s.rt (power s.omega (-1)) s.cs.n) (minusI64 i (2 - s.cs.n))
        + (power s.alpha 2 * power s.omega (s.cs.n - 1))
          * vectorIndex (vectorPowerMul s.rt (power s.omega (-1)) s.cs.n) (minusI64 i (3 - s.cs.n)))
          (i - s.cs.n)))) :
    s.alpha ^ 2 * s.omega * s.rt.getD s.cs.n 0 = 0 := by
  have hc := conv_coeff s.cs.n s.omega
    (fun i => -power s.alpha 2 * rangeIndex 1 s.cs.n (minusI64 i 1),
         fun i => vectorIndex s.rt (minusI64 i 1) - vectorIndex s.rt (minusI64 i 2))
    (fun i => (-power s.alpha 2 * power s.omega (s.cs.n - 1))
          * vectorIndex (vectorPowerMul s.rt (power s.omega (-1)) s.cs.n) (minusI64 i (2 - s.cs.n))
        + (power s.alpha 2 * power s.omega (s.cs.n - 1))
          * vectorIndex (vectorPowerMul s.rt (power s.omega (-1)) s.cs.n) (minusI64 i (3 - s.cs.n)))
    h s.cs.n (by omega) (by omega)
  have hp7 := s.p7 hω ((s.cs.n : ℤ) + 1)
  beta_reduce at hp7
  rw [hp7] at hc
  have e : ((s.cs.n : ℤ) + 1) = ((s.cs.n + 1 : ℕ) : ℤ) := by push_cast; rfl
  have dg : (-(Polynomial.C (s.alpha ^ 2) * geomPoly (1 : F) s.cs.n)).degree
      < ((s.cs.n + 1 : ℕ) : WithBot ℕ) :=
    degLt_neg (degLt_C_mul (degLt_mono (degree_geomPoly_lt 1 _) (by omega)) _)
  have r1 : Rep (fun i => -power s.alpha 2 * rangeIndex 1 s.cs.n (minusI64 i 1))
      (-(Polynomial.C (s.alpha ^ 2) * geomPoly (1 : F) s.cs.n)) :=
    ((rep_range1 s.cs.n).cmul _).congr (by rw [power_two]; simp only [map_neg]; ring)
  set δ := s.rt.getD s.cs.n 0 with hδ
  have hco : ∀ k, s.cs.n + 1 ≤ k → (polyOf s.rt).coeff k = 0 := by
    intro k hk; rw [coeff_polyOf, List.getD_eq_default _ _ (by omega)]
  -- the right vector is cut off after `n + 1` entries
  have r2 : polyOf (expressionVector ((s.cs.n + 1 : ℕ) : ℤ)
      (fun i => vectorIndex s.rt (minusI64 i 1) - vectorIndex s.rt (minusI64 i 2)))
      = polyOf s.rt - X * polyOf s.rt + Polynomial.C δ * X ^ (s.cs.n + 1) := by
    have hr : Rep (fun i => vectorIndex s.rt (minusI64 i 1) - vectorIndex s.rt (minusI64 i 2))
        (polyOf s.rt - X * polyOf s.rt) :=
      ((rep_vec1 s.rt).sub ((rep_vec s.rt).minus 1 (by norm_num))).congr (by rw [pow_one])
    ext k
    rw [coeff_polyOf, getD_expressionVector, Polynomial.coeff_add, Polynomial.coeff_C_mul_X_pow]
    by_cases hk : k < s.cs.n + 1
    · have hrk := hr ((k : ℤ) + 1)
      beta_reduce at hrk
      rw [if_pos (by omega), hrk, add_sub_cancel_right, zc_natCast, if_neg (by omega), add_zero]
    · rw [if_neg (by omega), Polynomial.coeff_sub, hco k (by omega)]
      obtain ⟨j, rfl⟩ : ∃ j, k = j + 1 := ⟨k - 1, by omega⟩
      rw [Polynomial.coeff_X_mul]
      by_cases hj : j = s.cs.n
      · subst hj; rw [if_pos rfl, coeff_polyOf]; ring
      · rw [if_neg (by omega), hco j (by omega)]; ring
  dsimp only at hc
  rw [e, polyOf_expressionVector r1 (s.cs.n + 1) dg, r2, map_add toLaurent, mul_add, lcoeff_add,
    ← e, add_sub_cancel_right] at hc
  have h0 := left_eq_add.mp hc
  have hsplit : toLaurent (Polynomial.C δ * X ^ (s.cs.n + 1))
      = T (s.cs.n : ℤ) * toLaurent (Polynomial.C δ * X) := by
    rw [pow_succ, map_mul, map_mul, map_mul, Polynomial.toLaurent_X_pow]; ring
  rw [hsplit, mul_left_comm, lcoeff_T_mul, sub_self,
    lcoeff_zero_mul s.omega _ _ (s.cs.n + 1) dg,
    Finset.sum_eq_single 1 (by
      intro i _ hi
      rw [Polynomial.coeff_C_mul, Polynomial.coeff_X, if_neg (fun h => hi h.symm)]; ring) (by
      intro h; simp at h; omega)] at h0
  rw [Polynomial.coeff_neg, Polynomial.coeff_C_mul, coeff_geomPoly, if_pos (by omega),
    Polynomial.coeff_C_mul, Polynomial.coeff_X, if_pos rfl] at h0
  linear_combination -h0

set_option maxHeartbeats 1000000 in
/-- **C45 (deviation: the honest prover aborts).** For every prover key, parameters with
`max(lookup_size, range) ≥ 2`, witness, hash function and blinding values whose fifth one is not
zero: if `prove` returns a proof at all, then the challenge `α` derived from that proof is zero.  So
unless the hash happens to be zero, the honest prover of the range check never produces a proof:
the vector of running sums is one entry longer than `maxshift = 0` allows, and the prover's own
consistency check stops it. -/
theorem C45_prover_aborts (env : Env F G1 G2 GT) (pk : RcPK F G1 G2)
    (hN : 1 ≤ pk.vk.size.lookupSize) (hn : 2 ≤ max pk.vk.size.lookupSize pk.vk.size.range)
    (hδ : env.rngF 4 ≠ 0) (w : List F) (π : RcProof F G1) (hp : rcProve env pk w = .ok π) :
    env.hash [.fld 1, .cm pk.vk.cmT, .cm π.cmW, .cm π.cmM, .cm π.cmR, .cm π.cmS, .cm π.cmRt] = 0 := by
  unfold rcProve at hp
  obtain ⟨wv, -, hp⟩ := res_bind_ok hp
  obtain ⟨cmW, -, hp⟩ := res_bind_ok hp
  obtain ⟨mv, -, hp⟩ := res_bind_ok hp
  obtain ⟨cmM, -, hp⟩ := res_bind_ok hp
  obtain ⟨rv, -, hp⟩ := res_bind_ok hp
  obtain ⟨cmR, -, hp⟩ := res_bind_ok hp
  obtain ⟨sv, -, hp⟩ := res_bind_ok hp
  obtain ⟨cmS, -, hp⟩ := res_bind_ok hp
  obtain ⟨cmRt, -, hp⟩ := res_bind_ok hp
  obtain ⟨cmT1, -, hp⟩ := res_bind_ok hp
  obtain ⟨d, hd, hp⟩ := res_bind_ok hp
  obtain ⟨_, hdb, hp⟩ := res_bind_ok hp
  obtain ⟨cmH1, -, hp⟩ := res_bind_ok hp
  obtain ⟨cmH2, -, hp⟩ := res_bind_ok hp
  obtain ⟨oz, -, hp⟩ := res_bind_ok hp
  obtain ⟨evals, -, hp⟩ := res_bind_ok hp
  obtain ⟨_, -, hp⟩ := res_bind_ok hp
  obtain ⟨k, -, hp⟩ := res_bind_ok hp
  obtain ⟨gv, -, hp⟩ := res_bind_ok hp
  obtain ⟨cmG', -, hp⟩ := res_bind_ok hp
  obtain ⟨_, -, hp⟩ := res_bind_ok hp
  obtain ⟨_, -, hp⟩ := res_bind_ok hp
  obtain ⟨_, -, hp⟩ := res_bind_ok hp
  obtain ⟨⟨c1, c2⟩, -, hp⟩ := res_bind_ok hp
  obtain rfl := Except.ok.inj hp
  show rcAlpha env pk.vk.cmT cmW cmM cmR cmS cmRt = 0
  set s : RcRun F := ⟨pk.vk.size, rcAlpha env pk.vk.cmT cmW cmM cmR cmS cmRt,
    rcBeta env pk.vk.cmT cmW cmM, rcOmega env pk.vk.cmT cmW cmM cmR cmS cmRt cmT1, wv, pk.t, mv, rv,
    sv, rcRt env.rngF pk.vk.size (rcBeta1 env pk.vk.cmT cmW cmM cmR cmS) rv sv,
    rcT1 env.rngF pk.vk.size (rcAlpha env pk.vk.cmT cmW cmM cmR cmS cmRt)
      (rcBeta env pk.vk.cmT cmW cmM) wv pk.t mv rv sv
      (rcRt env.rngF pk.vk.size (rcBeta1 env pk.vk.cmT cmW cmM cmR cmS) rv sv)⟩ with hs
  have hd' : s.derive env.fft = .ok d := hd
  have hdb' : debugChecks1 s.cs.n s.omega s.pairs (s.atimesb d) (s.hAt d) = .ok () := hdb
  have hvrt : d.vrt = vectorPowerMul s.rt (power s.omega (-1)) s.cs.n := by
    unfold RcRun.derive at hd'
    obtain ⟨_, -, hd'⟩ := res_bind_ok hd'
    obtain ⟨_, -, hd'⟩ := res_bind_ok hd'
    obtain rfl := Except.ok.inj hd'
    rfl
  unfold debugChecks1 at hdb'
  obtain ⟨r, hr, -⟩ := res_bind_ok hdb'
  have hm := convChecks_mem _ _ _ _ _ hr
  have h2 := hm _ (.tail _ (.head _))
  have h7 := hm _ (.tail _ (.tail _ (.tail _ (.tail _ (.tail _ (.tail _ (.head _)))))))
  have hω := rc_pair2 s hN d h2
  have hlen : s.rt.length = s.cs.n + 1 := by
    show (rcRt _ _ _ _ _).length = _
    unfold rcRt
    rw [List.length_append, (C09_plus 0 _ _).1, sampleVec_one]; rfl
  have hlast : s.rt.getD s.cs.n 0 = env.rngF 4 := by
    show (rcRt _ _ _ _ _).getD _ _ = _
    unfold rcRt
    have := (C09_plus 0 pk.vk.size.n (fun i => powerLinearCombination
      (rcBeta1 env pk.vk.cmT cmW cmM cmR cmS)
      [vectorIndex rv i * rangeIndex 1 pk.vk.size.lookupSize i
        - vectorIndex sv i * rangeIndex 1 pk.vk.size.range i])).1
    rw [List.getD_append_right _ _ _ _ (by rw [this]), this, sampleVec_one]
    show [env.rngF 4].getD (pk.vk.size.n - pk.vk.size.n) 0 = _
    rw [Nat.sub_self]; rfl
  dsimp only at h7
  rw [hvrt] at h7
  have h := rc_pair7 s hn hω hlen h7
  rw [hlast] at h
  rcases mul_eq_zero.mp h with h | h
  · rcases mul_eq_zero.mp h with h | h
    · exact pow_eq_zero_iff (two_ne_zero) |>.mp h
    · exact absurd h hω
  · exact absurd h hδ

end VO
