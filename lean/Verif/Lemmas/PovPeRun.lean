import Verif.Lemmas.PovPeComplete
import Verif.Lemmas.PovRun
import Verif.Lemmas.PovEntries
import Verif.Props.Cs

set_option linter.unusedSectionVars false

namespace VO
open Spec
open Polynomial (X toLaurent)
open LaurentPolynomial (T)

variable {F G1 G2 GT : Type} [Field F] [DecidableEq F]
  [AddCommGroup G1] [Module F G1] [DecidableEq G1] [AddCommGroup G2] [Module F G2]
  [AddCommGroup GT] [Module F GT] [DecidableEq GT]

/-! ### The committed vectors -/

theorem povPeU_ok (rng : ℕ → F) (c cm : ℕ) (w : POVWitness F) (h0 : w.w0.length = c)
    (h1 : w.w1.length = c) (hcm : cm ≤ c) :
    povPeU rng c cm w = .ok (peU c cm w (rng 0)) ∧ (peU c cm w (rng 0)).length = 3 * c + 1 := by
  have e : concatSubvec w.w0 0 c w.w1 0 cm = .ok (w.w0 ++ w.w1.take cm) := by
    rw [concatSubvec, if_neg (by omega)]
    simp [← h0]
  have l : (w.w0 ++ w.w1.take cm).length = c + cm := by simp; omega
  constructor
  · rw [povPeU, e]
    show zeroPadAndConcat _ _ _ = _
    rw [zeroPadAndConcat, sampleVec_one, l, if_neg (by omega), peU]
    congr 4
    omega
  · simp [peU]; omega

theorem povPeV_ok (rng : ℕ → F) (c ca cm : ℕ) (w : POVWitness F) (h1 : w.w1.length = c)
    (h2 : w.w2.length = c) (hcm : ca + cm ≤ c) :
    povPeV rng c ca cm w = .ok (peV c ca cm w (rng 1)) ∧
      (peV c ca cm w (rng 1)).length = 3 * c + 1 := by
  have e : concatSubvec w.w1 cm c w.w2 0 (ca + cm) = .ok (w.w1.drop cm ++ w.w2.take (ca + cm)) := by
    rw [concatSubvec, if_neg (by omega)]
    have : (w.w1.drop cm).take (c - cm) = w.w1.drop cm := by
      apply List.take_of_length_le; simp; omega
    rw [this]; simp
  have l : (w.w1.drop cm ++ w.w2.take (ca + cm)).length = c + ca := by simp; omega
  constructor
  · rw [povPeV, e]
    show zeroPadAndConcat _ _ _ = _
    rw [zeroPadAndConcat, sampleVec_one, l, if_neg (by omega), peV]
    congr 4
    omega
  · simp [peV]; omega

theorem getD_replicate_zero (n i : ℕ) : (List.replicate n (0 : F)).getD i 0 = 0 := by
  by_cases h : i < n
  · rw [List.getD_eq_getElem _ _ (by simpa using h), List.getElem_replicate]
  · rw [List.getD_eq_default _ _ (by simpa using h)]

theorem getD_take_lt (l : List F) (n i : ℕ) (h : i < n) : (l.take n).getD i 0 = l.getD i 0 := by
  rw [List.getD_eq_getElem?_getD, List.getD_eq_getElem?_getD, List.getElem?_take, if_pos h]

theorem getD_drop_add (l : List F) (n i : ℕ) : (l.drop n).getD i 0 = l.getD (n + i) 0 := by
  rw [List.getD_eq_getElem?_getD, List.getD_eq_getElem?_getD, List.getElem?_drop]

/-- Coefficients of the honest `u`. -/
theorem coeff_peU (c cm : ℕ) (w : POVWitness F) (δ : F) (h0 : w.w0.length = c)
    (h1 : w.w1.length = c) (hcm : cm ≤ c) :
    (∀ j, j < c → (polyOf (peU c cm w δ)).coeff j = w.w0.getD j 0) ∧
    (∀ j, j < cm → (polyOf (peU c cm w δ)).coeff (c + j) = w.w1.getD j 0) ∧
    (∀ j, c + cm ≤ j → j < 3 * c → (polyOf (peU c cm w δ)).coeff j = 0) := by
  have l1 : (w.w1.take cm).length = cm := by simp; omega
  refine ⟨?_, ?_, ?_⟩
  · intro j hj
    rw [coeff_polyOf, peU, List.append_assoc, List.append_assoc, List.getD_append _ _ _ _ (by omega)]
  · intro j hj
    rw [coeff_polyOf, peU, List.append_assoc, List.append_assoc,
      List.getD_append_right _ _ _ _ (by omega), List.getD_append _ _ _ _ (by omega),
      getD_take_lt _ _ _ (by omega)]
    congr 1; omega
  · intro j hj hj3
    rw [coeff_polyOf, peU, List.append_assoc, List.append_assoc,
      List.getD_append_right _ _ _ _ (by omega), List.getD_append_right _ _ _ _ (by omega),
      List.getD_append _ _ _ _ (by simp; omega), getD_replicate_zero]

/-- Coefficients of the honest `v`. -/
theorem coeff_peV (c ca cm : ℕ) (w : POVWitness F) (δ : F) (h1 : w.w1.length = c)
    (h2 : w.w2.length = c) (hcm : ca + cm ≤ c) :
    (∀ j, j < c - cm → (polyOf (peV c ca cm w δ)).coeff j = w.w1.getD (cm + j) 0) ∧
    (∀ j, j < ca + cm → (polyOf (peV c ca cm w δ)).coeff (c - cm + j) = w.w2.getD j 0) ∧
    (∀ j, c + ca ≤ j → j < 3 * c → (polyOf (peV c ca cm w δ)).coeff j = 0) := by
  have l1 : (w.w1.drop cm).length = c - cm := by simp; omega
  have l2 : (w.w2.take (ca + cm)).length = ca + cm := by simp; omega
  refine ⟨?_, ?_, ?_⟩
  · intro j hj
    rw [coeff_polyOf, peV, List.append_assoc, List.append_assoc, List.getD_append _ _ _ _ (by omega),
      getD_drop_add]
  · intro j hj
    rw [coeff_polyOf, peV, List.append_assoc, List.append_assoc,
      List.getD_append_right _ _ _ _ (by omega), List.getD_append _ _ _ _ (by omega),
      getD_take_lt _ _ _ (by omega)]
    congr 1; omega
  · intro j hj hj3
    rw [coeff_polyOf, peV, List.append_assoc, List.append_assoc,
      List.getD_append_right _ _ _ _ (by omega), List.getD_append_right _ _ _ _ (by omega),
      List.getD_append _ _ _ _ (by simp; omega), getD_replicate_zero]

theorem coeff_pePoly (c ca cm : ℕ) (U V K : Polynomial F) (j : ℕ) :
    (pePoly c ca cm U V K).coeff j = U.coeff j + (if c + cm ≤ j then V.coeff (j - (c + cm)) else 0)
      + (if 2 * c + ca + cm ≤ j then K.coeff (j - (2 * c + ca + cm)) else 0) := by
  rw [pePoly, Polynomial.coeff_add, Polynomial.coeff_add, Polynomial.coeff_X_pow_mul',
    Polynomial.coeff_X_pow_mul']

/-- The three columns of the assignment in the vector of all values. -/
theorem povVec_cols (c : ℕ) (w : POVWitness F) (h0 : w.w0.length = c) (h1 : w.w1.length = c)
    (h2 : w.w2.length = c) :
    (∀ j, j < c → (povVec w).getD j 0 = w.w0.getD j 0) ∧
    (∀ j, j < c → (povVec w).getD (c + j) 0 = w.w1.getD j 0) ∧
    (∀ j, j < c → (povVec w).getD (2 * c + j) 0 = w.w2.getD j 0) := by
  refine ⟨?_, ?_, ?_⟩
  · intro j hj
    rw [povVec, List.append_assoc, List.getD_append _ _ _ _ (by omega)]
  · intro j hj
    rw [povVec, List.append_assoc, List.getD_append_right _ _ _ _ (by omega),
      List.getD_append _ _ _ _ (by omega), show c + j - w.w0.length = j by omega]
  · intro j hj
    rw [povVec, List.getD_append_right _ _ _ _ (by simp; omega)]
    congr 1
    simp; omega

/-- The honest `u` and `v` with the constants encode the assignment. -/
theorem coeff_pePoly_honest (c ca cm : ℕ) (w : POVWitness F) (δ δ' : F) (d : List F)
    (h0 : w.w0.length = c) (h1 : w.w1.length = c) (h2 : w.w2.length = c)
    (hd : d.length = c - ca - cm) (hsz : ca + cm < c)
    (hk : ∀ j, j < d.length → w.w2.getD (cm + ca + j) 0 = d.getD j 0) (j : ℕ) (hj : j < 3 * c) :
    (pePoly c ca cm (polyOf (peU c cm w δ)) (polyOf (peV c ca cm w δ')) (polyOf d)).coeff j
      = (povVec w).getD j 0 := by
  obtain ⟨u1, u2, u3⟩ := coeff_peU c cm w δ h0 h1 (by omega)
  obtain ⟨v1, v2, v3⟩ := coeff_peV c ca cm w δ' h1 h2 (by omega)
  obtain ⟨p1, p2, p3⟩ := povVec_cols c w h0 h1 h2
  rw [coeff_pePoly]
  by_cases a1 : j < c
  · rw [u1 j a1, p1 j a1, if_neg (by omega), if_neg (by omega)]; ring
  by_cases a2 : j < c + cm
  · have := u2 (j - c) (by omega)
    rw [show c + (j - c) = j by omega] at this
    have hp := p2 (j - c) (by omega)
    rw [show c + (j - c) = j by omega] at hp
    rw [this, hp, if_neg (by omega), if_neg (by omega)]; ring
  rw [u3 j (by omega) hj, if_pos (by omega)]
  by_cases a3 : j < 2 * c
  · have hp := p2 (j - c) (by omega)
    rw [show c + (j - c) = j by omega] at hp
    rw [v1 _ (by omega), hp, if_neg (by omega), show cm + (j - (c + cm)) = j - c by omega]; ring
  have hp := p3 (j - 2 * c) (by omega)
  rw [show 2 * c + (j - 2 * c) = j by omega] at hp
  rw [hp]
  by_cases a4 : j < 2 * c + ca + cm
  · have := v2 (j - 2 * c) (by omega)
    rw [show c - cm + (j - 2 * c) = j - (c + cm) by omega] at this
    rw [this, if_neg (by omega)]; ring
  · have := hk (j - (2 * c + ca + cm)) (by omega)
    rw [show cm + ca + (j - (2 * c + ca + cm)) = j - 2 * c by omega] at this
    rw [v3 _ (by omega) (by omega), if_pos (by omega), coeff_polyOf, this]; ring

/-! ### The grand product -/

theorem accumulateVectorMulR_congr (n : ℤ) (f g : ℤ → Res F)
    (h : ∀ k : ℕ, k < n.toNat → f ((k : ℤ) + 1) = g ((k : ℤ) + 1)) :
    accumulateVectorMulR n f = accumulateVectorMulR n g := by
  unfold accumulateVectorMulR
  have : ∀ l : List ℕ, (∀ k ∈ l, k < n.toNat) →
      l.mapM (fun (k : ℕ) => f ((k : ℤ) + 1)) = l.mapM (fun (k : ℕ) => g ((k : ℤ) + 1)) := by
    intro l
    induction l with
    | nil => intro _; rfl
    | cons a l ih =>
      intro hl
      rw [List.mapM_cons, List.mapM_cons, h a (hl a (by simp)), ih (fun k hk => hl k (by simp [hk]))]
  rw [this _ (fun k hk => List.mem_range.mp hk)]

/-- `r_vec` depends on the three committed vectors only through the encoded vector. -/
theorem povPeR_eq (rng : ℕ → F) (c ca cm : ℕ) (γ ζ ζ1 : F) (u v d sigma wl : List F)
    (lw : 3 * c ≤ wl.length)
    (hw : ∀ j, j < 3 * c → (pePoly c ca cm (polyOf u) (polyOf v) (polyOf d)).coeff j = wl.getD j 0) :
    povPeR rng c ca cm γ ζ ζ1 u v d sigma = povR (fun i => rng (i + 1)) c γ ζ ζ1 wl sigma := by
  unfold povPeR povR
  have e : ∀ k : ℕ, k < 3 * c → vectorIndex u (minusI64 ((k : ℤ) + 1) 1)
      + vectorIndex v (minusI64 ((k : ℤ) + 1) (cm + c + 1))
      + vectorIndex d (minusI64 ((k : ℤ) + 1) (ca + cm + 2 * c + 1))
      = vectorIndex wl (minusI64 ((k : ℤ) + 1) 1) := by
    intro k hk
    have hz : ∀ p : Polynomial F, zc p ((k : ℤ) + 1 - 1) = p.coeff k := by
      intro p; rw [add_sub_cancel_right, zc_natCast]
    have r1 : ∀ l : List F, vectorIndex l (minusI64 ((k : ℤ) + 1) 1) = (polyOf l).coeff k :=
      fun l => by rw [← hz]; exact rep_vec1 l _
    have r2 : ∀ (l : List F) (m : ℕ), vectorIndex l (minusI64 ((k : ℤ) + 1) ((m : ℤ) + 1))
        = (X ^ m * polyOf l).coeff k := fun l m => by
      rw [← hz]; exact (rep_vec l).minus m rfl _
    have r3 := r2 v (c + cm)
    have r4 := r2 d (2 * c + ca + cm)
    rw [show ((c + cm : ℕ) : ℤ) + 1 = (cm : ℤ) + c + 1 by push_cast; ring] at r3
    rw [show ((2 * c + ca + cm : ℕ) : ℤ) + 1 = (ca : ℤ) + cm + 2 * c + 1 by push_cast; ring] at r4
    rw [r1 u, r1 wl, r3, r4, coeff_polyOf wl, ← hw k hk, pePoly, Polynomial.coeff_add,
      Polynomial.coeff_add]
  rw [accumulateVectorMulR_congr]
  · rfl
  · intro k hk
    have hk : k < 3 * c := by omega
    simp only [e k hk]

/-! ### The index -/

theorem povPeIndex_ok (γ β : F) (hγ : γ ≠ 0) (g : G1) (h : G2) (D : ℕ) (pp : UniversalParams G1 G2)
    (hs : kzgSetup D β g h = .ok pp) (cs : POV F) (c : ℕ)
    (hc : c = cs.nmul + cs.nadd + cs.consts.length) (hne : cs.consts ≠ [])
    (hw : ∀ p ∈ cs.wires, p.1 < 3 * c ∧ p.2 < 3 * c) (hD : 4 * c + cs.nmul ≤ D) :
    ∃ (sigma : List F) (kvk : VerifierKey G1 G2), sigma.length = 3 * c ∧ HonestVk β g h kvk ∧
      (∀ i, i < 3 * c → (cs.wires.map (fun p => Equiv.swap p.1 p.2)).prod i < 3 * c ∧
        sigma.getD i 0 = γ ^ ((cs.wires.map (fun p => Equiv.swap p.1 p.2)).prod i)) ∧
      polyOf sigma = permPoly (3 * c) γ (cs.wires.map (fun p => Equiv.swap p.1 p.2)).prod ∧
      let vk : PovPeVK G1 G2 := ⟨(polyOf sigma).eval β • g, (polyOf cs.consts).eval β • g, kvk,
        cs.getSize, D + 1⟩
      povPeIndex γ pp cs = .ok (⟨vk, srs β g D, 4 * c + cs.nmul, sigma, cs.consts⟩, vk) := by
  have hlen : 0 < cs.consts.length := List.length_pos_of_ne_nil hne
  obtain ⟨kvk, h1, h2⟩ := C17_setup_vk D β g h pp hs
  obtain ⟨pp', h3, h4, -⟩ := (C17_setup D β g h).2 (by omega)
  rw [hs] at h3
  obtain rfl := Except.ok.inj h3
  obtain ⟨sigma, s1, s2, σ, s3, s4⟩ := C11_vector γ hγ cs.wires (3 * c) hw
  subst s3
  have hn : cs.getSize.n = c := by show _ + _ + _ = _; omega
  have hm : povPeMaxDegree cs.getSize = 4 * c + cs.nmul := by
    rw [povPeMaxDegree, hn]; show cs.nmul + 4 * c = _; omega
  have hadd : cs.getSize.nadd = cs.nadd := rfl
  have hmul : cs.getSize.nmul = cs.nmul := rfl
  refine ⟨sigma, kvk, s2, h2, s4, ?_, ?_⟩
  · ext i
    rw [coeff_polyOf, permPoly, Polynomial.finsetSum_coeff]
    simp only [Polynomial.coeff_C_mul_X_pow]
    rw [Finset.sum_ite_eq]
    simp only [Finset.mem_range]
    by_cases hi : i < 3 * c
    · rw [if_pos hi, (s4 i hi).2]
    · rw [if_neg hi, List.getD_eq_default _ _ (by omega)]
  · intro vk
    have e1 : (3 * (c : ℤ)) = ((3 * c : ℕ) : ℤ) := by push_cast; ring
    have k1 := commitVector_ok' β g D sigma (3 * c) (by intro h; simp [h] at s2; omega) s2 (by omega)
    have k2 := commitVector_ok' β g D cs.consts (-(cs.nadd : ℤ) - cs.nmul + c).toNat hne (by omega)
      (by omega)
    have s1' : permutationVectorFromWires γ cs.wires (3 * c) = .ok sigma := by
      first
      | exact s1
      | rw [e1]; exact s1
    simp only [povPeIndex, hm, hn, h4, length_srs, hadd, hmul, s1', k1, k2, h1, assertR, bind,
      Except.bind]
    rw [if_pos (by omega)]
    rfl

/-! ### Entries -/

/-- Entries below `3c` of the sum of Hadamard products, for arbitrary polynomials. -/
theorem povPe_entry_lt (c ca cm : ℕ) (hsz : ca + cm < c) (γ ζ ζ1 α : F)
    (U V S K I N R P1 : Polynomial F) (i : ℕ) (hi : i < 3 * c) :
    hadamardEntry (povPePolys c ca cm γ ζ ζ1 α U V S K I N R P1) i =
      ((if c ≤ i then U.coeff (i - c) * U.coeff i else 0)
        - (if c ≤ i ∧ i < c + cm then V.coeff (i - cm) else 0))
      + α * (if c ≤ i ∧ i < c + ca then
          U.coeff (i - (c - cm)) + V.coeff (i - c) - V.coeff i else 0)
      + α ^ 2 * (I.coeff i * (U.coeff i + (if c + cm ≤ i then V.coeff (i - (c + cm)) else 0)
          - N.coeff i))
      + α ^ 3 * ((if i = 0 then 1 else R.coeff (i - 1))
            * ((pePoly c ca cm U V K).coeff i + ζ * γ ^ i + ζ1)
          - R.coeff i * ((pePoly c ca cm U V K).coeff i + ζ * S.coeff i + ζ1))
      + α ^ 4 * (if i = 3 * c - 1 then R.coeff i - 1 else 0) := by
  have hX : (1 : Polynomial F).coeff i + (X * R).coeff i
      = if i = 0 then 1 else R.coeff (i - 1) := by
    cases i with
    | zero => simp
    | succ k => simp [Polynomial.coeff_one]
  have hg : ∀ a : F, (geomPoly a (3 * c)).coeff i = a ^ i := by
    intro a; rw [coeff_geomPoly, if_pos hi]
  have hxn : (X ^ (3 * c - 1) : Polynomial F).coeff i = if i = 3 * c - 1 then 1 else 0 :=
    Polynomial.coeff_X_pow _ _
  rw [povPePolys, entries_blind_lt _ _ (by omega) _ _ _ hi]
  generalize hW : pePoly c ca cm U V K = W
  simp only [hadamardEntry, povPeBase, hW, List.map_cons, List.map_nil, List.sum_cons, List.sum_nil,
    Polynomial.coeff_sub, Polynomial.coeff_add, Polynomial.coeff_C_mul, Polynomial.coeff_neg, hg, hxn]
  rw [hX]
  simp only [coeff_X_pow_geom, one_pow, mul_one]
  simp only [Polynomial.coeff_X_pow_mul']
  have e1 : (if c ≤ i ∧ i < c + cm then (1 : F) else 0)
        * (if cm ≤ i then V.coeff (i - cm) else 0)
      = (if c ≤ i ∧ i < c + cm then V.coeff (i - cm) else 0) := by
    by_cases h : c ≤ i ∧ i < c + cm
    · rw [if_pos h, if_pos (by omega), if_pos h]; ring
    · rw [if_neg h, if_neg h]; ring
  have e0 : (if c ≤ i then U.coeff (i - c) else 0) * U.coeff i
      = (if c ≤ i then U.coeff (i - c) * U.coeff i else 0) := by
    split_ifs <;> ring
  have e2 : (if c ≤ i ∧ i < c + ca then (1 : F) else 0)
      * ((if c - cm ≤ i then U.coeff (i - (c - cm)) else 0) + (if c ≤ i then V.coeff (i - c) else 0)
        - V.coeff i)
      = (if c ≤ i ∧ i < c + ca then
          U.coeff (i - (c - cm)) + V.coeff (i - c) - V.coeff i else 0) := by
    by_cases h : c ≤ i ∧ i < c + ca
    · rw [if_pos h, if_pos (by omega), if_pos (by omega), if_pos h]; ring
    · rw [if_neg h, if_neg h]; ring
  have e4 : (R.coeff i - (if i = 3 * c - 1 then 1 else 0)) * (if i = 3 * c - 1 then (1 : F) else 0)
      = (if i = 3 * c - 1 then R.coeff i - 1 else 0) := by
    split_ifs <;> ring
  rw [← e0, ← e1, ← e2, ← e4]
  ring

/-- All entries vanish if the equations hold. -/
theorem povPe_entry_zero (c ca cm : ℕ) (hsz : ca + cm < c) (γ ζ ζ1 α : F)
    (U V S K I N R P1 : Polynomial F)
    (hmul : ∀ j, j < cm → V.coeff (c - cm + j) = U.coeff j * U.coeff (c + j))
    (hzero : ∀ j, c + cm ≤ j → j < 3 * c → U.coeff (j - c) * U.coeff j = 0)
    (hadd : ∀ j, j < ca → V.coeff (c + j) = U.coeff (cm + j) + V.coeff j)
    (hI : ∀ j, j < 3 * c → I.coeff j ≠ 0 →
      U.coeff j + (if c + cm ≤ j then V.coeff (j - (c + cm)) else 0) = N.coeff j)
    (hR : ∀ j, j < 3 * c → (if j = 0 then 1 else R.coeff (j - 1))
        * ((pePoly c ca cm U V K).coeff j + ζ * γ ^ j + ζ1)
      = R.coeff j * ((pePoly c ca cm U V K).coeff j + ζ * S.coeff j + ζ1))
    (hlast : R.coeff (3 * c - 1) = 1) (i : ℕ) (hi : i < 3 * c) :
    hadamardEntry (povPePolys c ca cm γ ζ ζ1 α U V S K I N R P1) i = 0 := by
  rw [povPe_entry_lt c ca cm hsz _ _ _ _ _ _ _ _ _ _ _ _ _ hi, hR i hi, sub_self]
  have e1 : (if c ≤ i then U.coeff (i - c) * U.coeff i else 0)
        - (if c ≤ i ∧ i < c + cm then V.coeff (i - cm) else 0) = 0 := by
    by_cases h : c ≤ i
    · by_cases h' : i < c + cm
      · have := hmul (i - c) (by omega)
        rw [show c + (i - c) = i by omega, show c - cm + (i - c) = i - cm by omega] at this
        rw [if_pos h, if_pos ⟨h, h'⟩, this, sub_self]
      · rw [if_pos h, if_neg (by omega), hzero i (by omega) hi, sub_self]
    · rw [if_neg h, if_neg (by omega), sub_self]
  have e2 : (if c ≤ i ∧ i < c + ca then
          U.coeff (i - (c - cm)) + V.coeff (i - c) - V.coeff i else 0) = 0 := by
    split_ifs with h
    · have := hadd (i - c) (by omega)
      rw [show c + (i - c) = i by omega, show cm + (i - c) = i - (c - cm) by omega] at this
      rw [this, sub_self]
    · rfl
  have e4 : I.coeff i * (U.coeff i + (if c + cm ≤ i then V.coeff (i - (c + cm)) else 0)
      - N.coeff i) = 0 := by
    by_cases h : I.coeff i = 0
    · rw [h, zero_mul]
    · rw [hI i hi h, sub_self, mul_zero]
  have e5 : (if i = 3 * c - 1 then R.coeff i - 1 else 0) = 0 := by
    split_ifs with h
    · rw [h, hlast, sub_self]
    · rfl
  rw [e1, e2, e4, e5]; ring

end VO
