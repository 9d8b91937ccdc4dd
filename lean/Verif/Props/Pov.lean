import Verif.Lemmas.PovRun
import Verif.Lemmas.PovEntries
import Verif.Props.Hadamard
import Verif.Props.Cs
import Verif.Lemmas.SnarkExample

set_option linter.unusedSectionVars false

/-
Completeness of the POV SNARK (C41).
-/

namespace VO
open Spec
open Polynomial (X toLaurent)
open LaurentPolynomial (T)

variable {F G1 G2 GT : Type} [Field F] [DecidableEq F]
  [AddCommGroup G1] [Module F G1] [DecidableEq G1] [AddCommGroup G2] [Module F G2]
  [AddCommGroup GT] [Module F GT] [DecidableEq GT]

theorem coeff_polyOf_append_lt (l : List F) (a : F) (i : ℕ) (hi : i < l.length) :
    (polyOf (l ++ [a])).coeff i = l.getD i 0 := by
  rw [coeff_polyOf, List.getD_append _ _ _ _ hi]

/-- The committed polynomials of an honest run satisfy all equations below index `3c`. -/
theorem pov_honest (cs : POV F) (c : ℕ) (hc : c = cs.nmul + cs.nadd + cs.consts.length)
    (hne : cs.consts ≠ []) (ins : POVInstance F) (hlen : ins.idx.length = ins.vals.length)
    (hnd : ins.idx.Nodup) (w : POVWitness F) (hs : PovShape cs w) (hg : GatesHold cs w)
    (hi : InstanceHolds w ins) (γ ζ ζ1 α δ0 δ1 : F) (σ : Equiv.Perm ℕ)
    (hw : ∀ k, k < 3 * c → (povVec w).getD (σ k) 0 = (povVec w).getD k 0)
    (hσ : ∀ i, i < 3 * c → σ i < 3 * c)
    (hden : ∀ j, j < 3 * c → (povVec w).getD j 0 + ζ * γ ^ σ j + ζ1 ≠ 0) (P1 : Polynomial F)
    (i : ℕ) (hi3 : i < 3 * c) :
    hadamardEntry (povPolys c cs.nadd cs.nmul γ ζ ζ1 α (polyOf (povVec w ++ [δ0]))
      (permPoly (3 * c) γ σ) (polyOf cs.consts) (selPoly ins.idx) (instPoly ins.idx ins.vals)
      (grandPoly (3 * c) γ ζ ζ1 (fun j => (povVec w).getD j 0) (fun j => γ ^ σ j) δ1) P1) i = 0 := by
  have hl : 0 < cs.consts.length := List.length_pos_of_ne_nil hne
  obtain ⟨s0, s1, s2⟩ := hs
  obtain ⟨g1, g2, g3⟩ := hg
  have lv : (povVec w).length = 3 * c := by simp [povVec, s0, s1, s2]; omega
  have v0 : ∀ j, j < c → (povVec w).getD j 0 = w.w0.getD j 0 := by
    intro j hj
    rw [povVec, List.append_assoc, List.getD_append _ _ _ _ (by omega)]
  have v1 : ∀ j, j < c → (povVec w).getD (c + j) 0 = w.w1.getD j 0 := by
    intro j hj
    rw [povVec, List.append_assoc, List.getD_append_right _ _ _ _ (by omega),
      List.getD_append _ _ _ _ (by omega), show c + j - w.w0.length = j by omega]
  have v2 : ∀ j, j < c → (povVec w).getD (2 * c + j) 0 = w.w2.getD j 0 := by
    intro j hj
    rw [povVec, List.getD_append_right _ _ _ _ (by simp; omega)]
    congr 1
    simp; omega
  have hW : ∀ j, j < 3 * c → (polyOf (povVec w ++ [δ0])).coeff j = (povVec w).getD j 0 :=
    fun j hj => coeff_polyOf_append_lt _ _ _ (by omega)
  have hS : ∀ j, j < 3 * c → (permPoly (3 * c) γ σ).coeff j = γ ^ σ j := by
    intro j hj
    rw [permPoly, Polynomial.finsetSum_coeff]
    simp only [Polynomial.coeff_C_mul_X_pow]
    rw [Finset.sum_ite_eq, if_pos (Finset.mem_range.mpr hj)]
  have hm : (ins.idx.zip ins.vals).map Prod.fst = ins.idx := List.map_fst_zip (by omega)
  refine pov_entry_zero c cs.nadd cs.nmul (by omega) γ ζ ζ1 α _ _ _ _ _ _ P1 ?_ ?_ ?_ ?_ ?_ ?_ i hi3
  · intro j hj
    rw [hW _ (by omega), hW _ (by omega), hW _ (by omega), v0 j (by omega), v1 j (by omega),
      v2 j (by omega)]
    exact g1 j hj
  · intro j hj
    rw [hW _ (by omega), hW _ (by omega), hW _ (by omega), v0 (cs.nmul + j) (by omega),
      show 2 * c + cs.nmul + j = 2 * c + (cs.nmul + j) by omega,
      show c + cs.nmul + j = c + (cs.nmul + j) by omega, v1 _ (by omega), v2 _ (by omega)]
    exact g2 j hj
  · intro j hj
    rw [hW _ (by omega), show 2 * c + cs.nadd + cs.nmul + j = 2 * c + (cs.nmul + cs.nadd + j) by omega,
      v2 _ (by omega), coeff_polyOf]
    exact g3 j (by omega)
  · intro j hj hne0
    rw [hW j hj]
    have hin : ∃ p ∈ ins.idx.zip ins.vals, p.1 = j := by
      by_contra hc
      push Not at hc
      apply hne0
      rw [selPoly_eq, instPoly]
      have hj' : j ∉ ins.idx := by
        rw [← hm]; intro h; obtain ⟨p, hp, hpj⟩ := List.mem_map.mp h; exact hc p hp hpj
      rw [coeff_of_pairs _ (fun k => if k ∈ ins.idx then 1 else 0)]
      · exact if_neg hj'
      · rw [List.map_fst_zip (by simp)]; exact hnd
      · intro p hp
        have h1 : p.1 ∈ ins.idx := (List.of_mem_zip hp).1
        have h2 := (List.of_mem_zip hp).2
        obtain ⟨_, -, h3⟩ := List.mem_map.mp h2
        rw [if_pos h1, ← h3]
      · intro k hk
        apply if_neg
        intro hki
        obtain ⟨p, hp, rfl⟩ := List.mem_map.mp (show k ∈ (ins.idx.zip (ins.idx.map fun _ => (1 : F))).map
          Prod.fst by rw [List.map_fst_zip (by simp)]; exact hki)
        exact hk p hp rfl
    obtain ⟨p, hp, rfl⟩ := hin
    have hv : ∀ q ∈ ins.idx.zip ins.vals, (povVec w).getD q.1 0 = q.2 := by
      intro q hq
      rw [List.getD_eq_getElem?_getD, hi q hq]; rfl
    rw [instPoly, coeff_of_pairs _ (fun k => if k ∈ ins.idx then (povVec w).getD k 0 else 0)]
    · have : p.1 ∈ ins.idx := (List.of_mem_zip hp).1
      rw [if_pos this]
    · rw [hm]; exact hnd
    · intro q hq
      rw [if_pos (List.of_mem_zip hq).1]; exact hv q hq
    · intro k hk
      apply if_neg
      intro hki
      rw [← hm] at hki
      obtain ⟨q, hq, rfl⟩ := List.mem_map.mp hki
      exact hk q hq rfl
  · intro j hj
    rw [hW j hj, hS j hj]
    exact grand_rec (3 * c) γ ζ ζ1 (fun j => (povVec w).getD j 0) (fun j => γ ^ σ j) δ1 j hj hden
  · apply grand_last (3 * c) (by omega) γ ζ ζ1 _ σ hσ _ δ1 hden
    exact hw

/-- A witness that satisfies the copy constraints is invariant under the product of their swaps. -/
theorem invariant_of_wiring (cs : POV F) (w : POVWitness F) (hwire : WiringHolds cs w) (k : ℕ) :
    (povVec w).getD ((cs.wires.map (fun p => Equiv.swap p.1 p.2)).prod k) 0 = (povVec w).getD k 0 := by
  have hcopy : CopyOk cs.wires (fun k => (povVec w).getD k 0) := by
    intro p hp
    obtain ⟨a, h1, h2⟩ := hwire p hp
    show (povVec w).getD p.1 0 = (povVec w).getD p.2 0
    rw [List.getD_eq_getElem?_getD, List.getD_eq_getElem?_getD, h1, h2]
  exact C11_complete cs.wires _ hcopy k

/-- When `prove` returns a proof and when it panics, for a satisfying witness (the conclusion of C41):
it panics if a denominator of the grand product vanishes; otherwise, unless `ω = 0` and position 0 is
public, it returns a proof that `verify` accepts if `z ∉ {0, 1, ω, 1/γ}` and none of `W`, `R`, `G` is
constant, and panics if not. -/
def PovCompletes (env : Env F G1 G2 GT) (β : F) (g : G1) (D : ℕ) (cs : POV F) (c : ℕ)
    (ins : POVInstance F) (w : POVWitness F) (pk : PovPK F G1 G2) (vk : PovVK G1 G2) : Prop :=
  let σ := (cs.wires.map (fun p => Equiv.swap p.1 p.2)).prod
  let W := polyOf (povVec w ++ [env.rngF 0])
  let S := permPoly (3 * c) env.gamma σ
  let K := polyOf cs.consts
  let I := selPoly ins.idx
  let V := instPoly ins.idx ins.vals
  let cm := fun p : Polynomial F => (Item.cm (p.eval β • g) : Item F G1)
  let pre := fun (first : F) (l : List (Item F G1)) =>
    [.fld first, .nats ins.idx, .flds ins.vals, cm S, cm K] ++ l
  let ζ := env.hash (pre 1 [cm W])
  let ζ1 := env.hash (pre 2 [cm W])
  ((∃ j, j < 3 * c ∧ (povVec w).getD j 0 + ζ * env.gamma ^ σ j + ζ1 = 0) →
    povProve env pk ins w = .error .panic) ∧
  ((∀ j, j < 3 * c → (povVec w).getD j 0 + ζ * env.gamma ^ σ j + ζ1 ≠ 0) →
    let R := grandPoly (3 * c) env.gamma ζ ζ1 (fun j => (povVec w).getD j 0)
      (fun j => env.gamma ^ σ j) (env.rngF 1)
    let α := env.hash (pre 1 [cm W, cm R])
    let P1 := blindPoly (3 * c) (3 * c - cs.nmul + 1) (env.rngF 2)
      (povBase c cs.nadd cs.nmul env.gamma ζ ζ1 α W S K I V R)
    let ω := env.hash (pre 1 [cm W, cm R, cm P1])
    (ω ≠ 0 ∨ 0 ∉ ins.idx) →
    ∃ H1 H2 : Polynomial F, H1.degree < ((6 * c - cs.nmul : ℕ) : WithBot ℕ) ∧
      H2.degree < ((6 * c - cs.nmul : ℕ) : WithBot ℕ) ∧
      hadamardLaurent ω (povPolys c cs.nadd cs.nmul env.gamma ζ ζ1 α W S K I V R P1)
        = T (-((6 * c - cs.nmul : ℕ) : ℤ)) * toLaurent H1 + T 1 * toLaurent H2 ∧
      let Ĥ1 := X ^ (D + 1 - (6 * c - cs.nmul)) * H1
      let z := env.hash (pre 1 [cm W, cm R, cm P1, cm Ĥ1, cm H2])
      let G := povGPoly c cs.nadd cs.nmul (D + 1) env.gamma ζ ζ1 α ω z (W.eval (ω / z))
        (I.eval (ω / z)) (R.eval (ω / z)) (V.eval z) W S K P1 Ĥ1 H2
      let good := (z ≠ 0 ∧ z ≠ 1 ∧ z ≠ ω ∧ env.gamma * z ≠ 1) ∧ W.natDegree ≠ 0 ∧
        R.natDegree ≠ 0 ∧ G.natDegree ≠ 0
      (good → ∃ π, povProve env pk ins w = .ok π ∧ povVerify env vk ins π = .ok ()) ∧
      (¬ good → povProve env pk ins w = .error .panic))

set_option maxHeartbeats 1000000 in
/-- What the proof of C41 uses of a witness: gates, instance and invariance under the permutation. -/
theorem pov_complete (env : Env F G1 G2 GT) (hf : FftOk env.fft) (hγ : env.gamma ≠ 0) (β : F) (g : G1)
    (h : G2) (D : ℕ) (pp : UniversalParams G1 G2) (hs : kzgSetup D β g h = .ok pp) (cs : POV F)
    (hne : cs.consts ≠ []) (c : ℕ) (hc : c = cs.nmul + cs.nadd + cs.consts.length)
    (hD : 6 * c - cs.nmul ≤ D) (hfft : 6 * c + 2 ≤ 2 ^ env.fft.twoAdicity)
    (ins : POVInstance F) (hlen : ins.idx.length = ins.vals.length) (hnd : ins.idx.Nodup)
    (w : POVWitness F) (hsh : PovShape cs w) (hgate : GatesHold cs w) (hinst : InstanceHolds w ins)
    (hwr : ∀ p ∈ cs.wires, p.1 < 3 * c ∧ p.2 < 3 * c)
    (hinv : ∀ k, k < 3 * c → (povVec w).getD
      ((cs.wires.map (fun p => Equiv.swap p.1 p.2)).prod k) 0 = (povVec w).getD k 0) :
    ∃ pk vk, povIndex env.gamma pp cs = .ok (pk, vk) ∧
      PovCompletes env β g D cs c ins w pk vk := by
  have hcl : 0 < cs.consts.length := List.length_pos_of_ne_nil hne
  have lv : (povVec w).length = 3 * c := by
    obtain ⟨s0, s1, s2⟩ := hsh; simp [povVec, s0, s1, s2]; omega
  have hm : (ins.idx.zip ins.vals).map Prod.fst = ins.idx := List.map_fst_zip (by omega)
  have hir : ∀ i ∈ ins.idx, i < 3 * c := by
    intro i hi
    rw [← hm] at hi
    obtain ⟨q, hq, rfl⟩ := List.mem_map.mp hi
    obtain ⟨h1, -⟩ := List.getElem?_eq_some_iff.mp (hinst q hq)
    omega
  obtain ⟨sigma, kvk, ls, hvk, hsig, hS, hidx⟩ := povIndex_ok env.gamma β hγ g h D pp hs cs c hc hne hwr hD
  refine ⟨_, _, hidx, ?_⟩
  unfold PovCompletes
  intro σ W S K I V cm pre ζ ζ1
  have hS' : polyOf sigma = S := hS
  have hsz : cs.getSize.n = c := by show _ + _ + _ = _; omega
  have hadd : cs.getSize.nadd = cs.nadd := rfl
  have hmul : cs.getSize.nmul = cs.nmul := rfl
  have z6 : (3 * (c : ℤ)) = ((3 * c : ℕ) : ℤ) := by push_cast; ring
  obtain ⟨xv, hx1, hx2, hx3⟩ := sparseVector_poly ins.idx ins.vals (3 * c) hlen hnd hir
  obtain ⟨tv, ht1, ht2, ht3⟩ := sparseZeroOne_poly (F := F) ins.idx (3 * c) hnd hir
  rw [← z6] at hx1 ht1
  set wv := povVec w ++ [env.rngF 0] with hwv
  have lwv : wv.length = 3 * c + 1 := by simp [hwv, lv]
  have hW0 := povW_ok env.rngF c w lv
  have hcW : commitVector (srs β g D) wv (3 * c + 1) = .ok (W.eval β • g) :=
    commitVector_ok' β g D _ _ (by simp [hwv]) lwv (by omega)
  have hK' : polyOf cs.consts = K := rfl
  have hζ : env.hash (povPrefix 1 ins (S.eval β • g) (K.eval β • g) ++ [.cm (W.eval β • g)]) = ζ := rfl
  have hζ1 : env.hash (povPrefix 2 ins (S.eval β • g) (K.eval β • g) ++ [.cm (W.eval β • g)]) = ζ1 := rfl
  have hwg : ∀ j, j < 3 * c → wv.getD j 0 = (povVec w).getD j 0 := by
    intro j hj; rw [hwv, List.getD_append _ _ _ _ (by omega)]
  constructor
  · rintro ⟨j, hj, hj0⟩
    have hp := povR_panic env.rngF c env.gamma ζ ζ1 wv sigma (by omega) ls
      ⟨j, hj, by rw [hwg j hj, (hsig j hj).2]; exact hj0⟩
    unfold povProve
    simp only [hsz, hS', hK', hx1, hW0, ← hwv, hcW, ht1, hζ, hζ1, hp, bind, Except.bind]
  intro hden R α P1 ω hω0
  obtain ⟨r, hr1, hr2, hr3⟩ := povR_ok env.rngF c (by omega) env.gamma ζ ζ1 hγ wv sigma (by omega) ls
    (fun j hj => by rw [hwg j hj, (hsig j hj).2]; exact hden j hj)
  have hR : polyOf r = R := by
    rw [hr3]
    show grandPoly _ _ _ _ _ _ _ = grandPoly _ _ _ _ _ _ _
    unfold grandPoly
    congr 1
    apply Finset.sum_congr rfl
    intro i hi
    congr 2
    apply Finset.prod_congr rfl
    intro j hj
    have hj : j < 3 * c := by
      have := Finset.mem_range.mp hi; have := Finset.mem_range.mp hj; omega
    beta_reduce
    rw [hwg j hj, (hsig j hj).2]
  set s0 : PovRun F := ⟨c, cs.nadd, cs.nmul, env.gamma, ζ, ζ1, α, 0, wv, xv, tv, sigma, cs.consts, r, []⟩
    with hs0
  have hgood0 : s0.Good := ⟨by show cs.nadd + cs.nmul < c; omega, hγ, lwv, hx2, ht2, ls,
    by show cs.consts.length = c - cs.nadd - cs.nmul; omega, hr2⟩
  have hbase : s0.base = povBase c cs.nadd cs.nmul env.gamma ζ ζ1 α W S K I V R := by
    show povBase _ _ _ _ _ _ _ (polyOf wv) (polyOf sigma) (polyOf cs.consts) (polyOf tv) (polyOf xv)
      (polyOf r) = _
    rw [hS', ht3, hx3, hR]
  obtain ⟨lt1, pt1⟩ := s0.mkT1_ok hgood0 env.rngF
  set t1 := s0.mkT1 env.rngF with ht1d
  have lt1 : t1.length = 3 * c - cs.nmul + 3 := lt1
  have hP1 : polyOf t1 = P1 := by rw [pt1, hbase]
  have dP1 : P1.degree < ((2 * c - cs.nmul + 2 : ℕ) : WithBot ℕ) := by
    have := s0.blind_degree hgood0 (env.rngF 2)
    rwa [hbase] at this
  set s : PovRun F := ⟨c, cs.nadd, cs.nmul, env.gamma, ζ, ζ1, α, ω, wv, xv, tv, sigma, cs.consts, r, t1⟩
    with hsd
  have hgood : s.Good := ⟨hgood0.1, hgood0.2, hgood0.3, hgood0.4, hgood0.5, hgood0.6, hgood0.7, hgood0.8⟩
  have hpolys : s.polys = povPolys c cs.nadd cs.nmul env.gamma ζ ζ1 α W S K I V R P1 := by
    show s0.base ++ [blindPair (3 * c) (3 * c - cs.nmul + 1) (polyOf t1)] = _
    rw [hbase, hP1]; rfl
  have hσr : ∀ i, i < 3 * c → σ i < 3 * c := fun i hi => (hsig i hi).1
  have hentry : ∀ i, hadamardEntry s.polys i = 0 := by
    intro i
    rw [hpolys]
    apply entries_blind_zero _ _ (by omega)
    · intro i hi
      rw [← entries_blind_lt (3 * c) (3 * c - cs.nmul + 1) (by omega) P1 _ i hi]
      exact pov_honest cs c hc hne ins hlen hnd w hsh hgate hinst env.gamma ζ ζ1 α (env.rngF 0)
        (env.rngF 1) σ hinv hσr hden P1 i hi
    · intro i hi
      have hi' : 5 * s0.c - s0.cm < i := by
        show 5 * c - cs.nmul < i
        omega
      have := s0.base_high hgood0 i hi'
      rwa [hbase] at this
  have hh := s.hAtRep hgood
  set M := 6 * c - cs.nmul with hM
  have dW : W.degree < ((3 * c + 1 : ℕ) : WithBot ℕ) := by rw [← lwv]; exact degree_polyOf_lt wv
  have dR : R.degree < ((3 * c + 1 : ℕ) : WithBot ℕ) := by rw [← hR, ← hr2]; exact degree_polyOf_lt r
  have dI : I.degree < ((3 * c + 1 : ℕ) : WithBot ℕ) := by
    rw [show I = polyOf tv from ht3.symm]; exact degLt_mono (degree_polyOf_lt tv) (by omega)
  have dV : V.degree < ((3 * c + 1 : ℕ) : WithBot ℕ) := by
    rw [show V = polyOf xv from hx3.symm]; exact degLt_mono (degree_polyOf_lt xv) (by omega)
  have dS : S.degree < ((3 * c + 1 : ℕ) : WithBot ℕ) := by
    rw [← hS']; exact degLt_mono (degree_polyOf_lt sigma) (by omega)
  have dK : K.degree < ((2 * c - cs.nmul + 1 : ℕ) : WithBot ℕ) :=
    degLt_mono (degree_polyOf_lt cs.consts) (by omega)
  have hdA : ∀ p ∈ s.polys, p.1.degree < ((M + 1 : ℕ) : WithBot ℕ) := by
    intro p hp
    rw [hpolys] at hp
    exact degLt_mono (povPolys_degA c cs.nadd cs.nmul (3 * c) (by omega) env.gamma ζ ζ1 α W S K I V R P1
      le_rfl dW (degLt_mono dI (by omega)) dR p hp) (by omega)
  have hdB : ∀ p ∈ s.polys, p.2.degree < ((M + 1 : ℕ) : WithBot ℕ) := by
    intro p hp
    rw [hpolys] at hp
    exact povPolys_degB c cs.nadd cs.nmul (3 * c) (2 * c - cs.nmul) (by omega) env.gamma ζ ζ1 α W S K I V R
      P1 le_rfl dW dS dK dP1 M (degLt_mono dV (by omega)) (by omega) (by omega) p hp
  have hid := hadamard_identity M ω s.polys hdA hdB (s.hAt s.derived) hh hentry
  set h1 := hVec1 M (s.hAt s.derived) with hh1
  set h2 := hVec2 M (s.hAt s.derived) with hh2
  have l1 : h1.length = M := length_hVec1 _ _
  have l2 : h2.length = M := length_hVec2 _ _
  have d1 := degree_polyOf_lt h1
  have d2 := degree_polyOf_lt h2
  rw [l1] at d1; rw [l2] at d2
  refine ⟨polyOf h1, polyOf h2, d1, d2, by rw [← hpolys, hid], ?_⟩
  intro Ĥ1 z G good
  have hne1 : h1 ≠ [] := by intro h; simp [h] at l1; omega
  have hne2 : h2 ≠ [] := by intro h; simp [h] at l2; omega
  have hcR : commitVector (srs β g D) r (3 * c + 1) = .ok (R.eval β • g) := by
    rw [commitVector_ok' β g D _ _ (by intro h; simp [h] at hr2) hr2 (by omega), hR]
  have hms : (-(cs.nmul : ℤ) + 3 * c + 2).toNat = 3 * c - cs.nmul + 2 := by omega
  have hcT1 : commitVector (srs β g D) t1 (-(cs.nmul : ℤ) + 3 * c + 2).toNat = .ok (P1.eval β • g) := by
    have := (C23_vector_commitment β g D t1 (3 * c - cs.nmul + 2) (by intro h; simp [h] at lt1)).2.1
      (by omega) (by omega)
    rw [hms, commitVector, this, hP1]; rfl
  have hM2 : (-(cs.nmul : ℤ) + 3 * c + 3 * c).toNat = M := by omega
  have hcH1 : commitVector (srs β g D) h1 (D + 1) = .ok (Ĥ1.eval β • g) := by
    rw [commitVector_ok β g D _ _ hne1 (by omega) (by omega), l1]
  have hcH2 : commitVector (srs β g D) h2 M = .ok ((polyOf h2).eval β • g) :=
    commitVector_ok' β g D _ _ hne2 l2 (by omega)
  have hα : env.hash (povPrefix 1 ins (S.eval β • g) (K.eval β • g)
    ++ [.cm (W.eval β • g), .cm (R.eval β • g)]) = α := rfl
  have hω : env.hash (povPrefix 1 ins (S.eval β • g) (K.eval β • g)
    ++ [.cm (W.eval β • g), .cm (R.eval β • g), .cm (P1.eval β • g)]) = ω := rfl
  have hz : env.hash (povPrefix 1 ins (S.eval β • g) (K.eval β • g)
    ++ [.cm (W.eval β • g), .cm (R.eval β • g), .cm (P1.eval β • g), .cm (Ĥ1.eval β • g),
      .cm ((polyOf h2).eval β • g)]) = z := rfl
  have hder : s.derive env.fft = .ok s.derived := s.derive_ok env.fft hf hgood hfft
  have en : (3 * (c : ℤ) + 1) = ((3 * c + 1 : ℕ) : ℤ) := by push_cast; rfl
  have hy : ∀ u, evalVectorExpression u (3 * (c : ℤ) + 1) (fun i => vectorIndex wv i)
      = W.eval u := by
    intro u
    rw [en, (rep_vec _).eval (3 * c + 1) dW]
  have hy2 : ∀ u, evalVectorExpression u (3 * (c : ℤ) + 1) (fun i => vectorIndex r i) = R.eval u := by
    intro u
    rw [en, (rep_vec _).eval (3 * c + 1) (by rw [hR]; exact dR), hR]
  unfold povProve
  simp only [hsz, hadd, hmul, hS', hK', hx1, hW0, ← hwv, hcW, ht1, hζ, hζ1, hr1, hcR, hα, bind,
    Except.bind]
  simp only [← hs0, ← ht1d, hcT1, hω, ← hsd, hder, hM2, ← hh1, ← hh2, hcH1, hcH2, hz]
  by_cases hz0 : z = 0
  · refine ⟨fun hg => absurd hz0 hg.1.1, fun _ => ?_⟩
    rw [hz0, divR_zero]
  rw [divR_ok hz0]
  have hω0' : ω / z ≠ 0 ∨ 0 ∉ ins.idx := hω0.imp (fun h => div_ne_zero h hz0) id
  simp only [hy, hy2, evalSparse01_eq ins.idx _ hω0', evalSparse_eq ins.idx ins.vals z hz0]
  simp only [show (selPoly ins.idx : Polynomial F) = I from rfl,
    show instPoly ins.idx ins.vals = V from rfl]
  by_cases hz3 : z = 1 ∨ z = ω ∨ env.gamma * z = 1
  · refine ⟨fun hg => ?_, fun _ => ?_⟩
    · obtain ⟨⟨-, e1, e2, e3⟩, -⟩ := hg
      rcases hz3 with h | h | h
      · exact absurd h e1
      · exact absurd h e2
      · exact absurd h e3
    · rw [povCoeffs_bad (D + 1) cs.getSize env.gamma ζ ζ1 α ω z _ _ _ _ (Or.inr hz3)]
  push Not at hz3
  obtain ⟨hz1, hzo, hzg⟩ := hz3
  have hcf := fun y y1 y2 v => povCoeffs_ok c cs.nadd cs.nmul (D + 1) cs.getSize hsz hadd hmul (by omega)
    env.gamma ζ ζ1 α ω z y y1 y2 v hz0 hz1 hzo hzg
  rw [hcf]
  obtain ⟨gv, hg1, hg2, hg3⟩ := povGvec_ok c cs.nadd cs.nmul D (by omega) hD wv cs.consts sigma t1 h1 h2
    (by omega) (by omega) (by omega) (by rw [hP1]; exact degLt_mono dP1 (by omega)) l1 l2 env.gamma ζ ζ1 α
    ω z (W.eval (ω / z)) (I.eval (ω / z)) (R.eval (ω / z)) (V.eval z)
  have hG : polyOf gv = G := by rw [hg3, hP1, hS']
  have hcmg := povK_eval c cs.nadd cs.nmul (D + 1) env.gamma ζ ζ1 α ω z (W.eval (ω / z))
    (I.eval (ω / z)) (R.eval (ω / z)) (V.eval z) β W S K P1 Ĥ1 (polyOf h2) g
  have hvkg : kvk.g = g := hvk.1
  have hGz : G.eval z = 0 := by
    show (povGPoly c cs.nadd cs.nmul (D + 1) env.gamma ζ ζ1 α ω z (W.eval (ω / z))
            (I.eval (ω / z)) (R.eval (ω / z)) (V.eval z) W S K P1 Ĥ1 (polyOf h2)).eval z = 0
    rw [povG_eval, ← hpolys, eval_identity M ω s.polys _ _ hid z hz0, Polynomial.eval_mul,
      Polynomial.eval_pow, Polynomial.eval_X]
    have h3 : z ^ (D + 1) = z ^ (D + 1 - M) * z ^ M := by
      rw [← pow_add]; congr 1; omega
    have h4 : z ^ M ≠ 0 := pow_ne_zero _ hz0
    have h5 : z ^ (D + 1 - M) ≠ 0 := pow_ne_zero _ hz0
    rw [h3]
    field_simp
    ring
  have hgz := checkPolyEval_ok gv z 0 (by rw [hG, hGz])
  simp only [hg1, hvkg, hcmg, hgz]
  simp only [show (povGPoly c cs.nadd cs.nmul (D + 1) env.gamma ζ ζ1 α ω z (W.eval (ω / z))
            (I.eval (ω / z)) (R.eval (ω / z)) (V.eval z) W S K P1 Ĥ1 (polyOf h2)) = G from rfl]
  set items := povXiItems (W.eval β • g) (R.eval β • g) (P1.eval β • g) (Ĥ1.eval β • g)
    ((polyOf h2).eval β • g) (G.eval β • g) (ω / z) (W.eval (ω / z)) (R.eval (ω / z)) z with hitems
  set xi := env.hash (povPrefix 1 ins (S.eval β • g) (K.eval β • g) ++ items) with hxi
  set xi2 := env.hash (povPrefix 2 ins (S.eval β • g) (K.eval β • g) ++ items) with hxi2
  have hlist : ([polyFromVec wv, polyFromVec r] : List (List F)) = [wv, r].map polyFromVec := rfl
  have hlistg : ([polyFromVec gv] : List (List F)) = [gv].map polyFromVec := rfl
  have nW : (polyOf wv).natDegree ≤ D := by
    have := natDegree_polyOf_lt wv (by simp [hwv]); omega
  have nR : (polyOf r).natDegree ≤ D := by
    have := natDegree_polyOf_lt r (by intro h; simp [h] at hr2); omega
  have nG : (polyOf gv).natDegree ≤ D := by
    have := natDegree_polyOf_lt gv (by intro h; simp [h] at hg2); omega
  rw [hlist, hlistg]
  constructor
  · rintro ⟨-, gW, gR, gG⟩
    obtain ⟨w1, w2, ho, hck⟩ := C21_batch_complete env.e β g h D kvk hvk
      [wv, r] [gv] (ω / z) z xi xi2 env.rngU128 (by
        intro f hm
        simp only [List.cons_append, List.nil_append, List.mem_cons, List.not_mem_nil,
          or_false] at hm
        rcases hm with rfl | rfl | rfl
        · exact ⟨gW, nW⟩
        · exact ⟨by rw [hR]; exact gR, nR⟩
        · exact ⟨by rw [hG]; exact gG, nG⟩)
    rw [ho]
    refine ⟨_, rfl, ?_⟩
    simp only [povVerify, hζ, hζ1, hα, hω, hz, divR_ok hz0, evalSparse01_eq ins.idx _ hω0',
      evalSparse_eq ins.idx ins.vals z hz0, bind, Except.bind]
    simp only [show (selPoly ins.idx : Polynomial F) = I from rfl,
      show instPoly ins.idx ins.vals = V from rfl, hcf, hvkg, hcmg]
    have hc' : batchCheck env.e kvk [W.eval β • g, R.eval β • g] [G.eval β • g]
        (ω / z) z xi xi2 [W.eval (ω / z), R.eval (ω / z)] [0] w1 w2 env.rngU128
        = true := by
      simp only [List.map_cons, List.map_nil, hG, hGz, hR] at hck
      exact hck
    exact if_pos hc'
  · intro hbad
    have hpanic := C21_batch_constant_aborts β g D [wv, r] [gv] (ω / z) z xi xi2
      (by
        intro f hm
        simp only [List.cons_append, List.nil_append, List.mem_cons, List.not_mem_nil,
          or_false] at hm
        rcases hm with rfl | rfl | rfl
        · exact nW
        · exact nR
        · exact nG)
      (by
        by_contra hc
        push Not at hc
        apply hbad
        refine ⟨⟨hz0, hz1, hzo, hzg⟩, hc wv (by simp), ?_, ?_⟩
        · have := hc r (by simp); rwa [hR] at this
        · have := hc gv (by simp); rwa [hG] at this)
    rw [hpanic]

/-- **C41.** Completeness of the POV SNARK, for every system with at least one constant gate, every
duplicate-free instance and witness accepted by `satisfy`, every hash function, blinding values,
trapdoor and maximal degree `D ≥ 6c - cm`, where `c` is the number of gates and `cm` of
multiplication gates.  `W`, `S`, `K` are the polynomials of the witness, the permutation and the
constants.  If a denominator of the grand product is zero, `prove` panics.  Otherwise let `R` be the
grand product, `P1` the blinding polynomial, `H1`, `H2` the (unique) polynomials with
`Σ A_j(ω/T) B_j(T) = T^{-(6c-cm)} H1 + T H2`, `z` the hash after them and `G` the final polynomial.
If `z ∉ {0, 1, ω, 1/γ}` and none of `W`, `R`, `G` is constant, `prove` succeeds and `verify` accepts
the proof; in every other case `prove` panics.  The challenge `ω = 0` is excluded when position 0 is
public. -/
theorem C41_complete (env : Env F G1 G2 GT) (hf : FftOk env.fft) (hγ : env.gamma ≠ 0) (β : F) (g : G1)
    (h : G2) (D : ℕ) (pp : UniversalParams G1 G2) (hs : kzgSetup D β g h = .ok pp) (cs : POV F)
    (hne : cs.consts ≠ []) (c : ℕ) (hc : c = cs.nmul + cs.nadd + cs.consts.length)
    (hD : 6 * c - cs.nmul ≤ D) (hfft : 6 * c + 2 ≤ 2 ^ env.fft.twoAdicity)
    (ins : POVInstance F) (hlen : ins.idx.length = ins.vals.length) (hnd : ins.idx.Nodup)
    (w : POVWitness F) (hsh : PovShape cs w) (hsat : cs.satisfy ins w = .ok true) :
    ∃ pk vk, povIndex env.gamma pp cs = .ok (pk, vk) ∧
      let σ := (cs.wires.map (fun p => Equiv.swap p.1 p.2)).prod
      let W := polyOf (povVec w ++ [env.rngF 0])
      let S := permPoly (3 * c) env.gamma σ
      let K := polyOf cs.consts
      let I := selPoly ins.idx
      let V := instPoly ins.idx ins.vals
      let cm := fun p : Polynomial F => (Item.cm (p.eval β • g) : Item F G1)
      let pre := fun (first : F) (l : List (Item F G1)) =>
        [.fld first, .nats ins.idx, .flds ins.vals, cm S, cm K] ++ l
      let ζ := env.hash (pre 1 [cm W])
      let ζ1 := env.hash (pre 2 [cm W])
      ((∃ j, j < 3 * c ∧ (povVec w).getD j 0 + ζ * env.gamma ^ σ j + ζ1 = 0) →
        povProve env pk ins w = .error .panic) ∧
      ((∀ j, j < 3 * c → (povVec w).getD j 0 + ζ * env.gamma ^ σ j + ζ1 ≠ 0) →
        let R := grandPoly (3 * c) env.gamma ζ ζ1 (fun j => (povVec w).getD j 0)
          (fun j => env.gamma ^ σ j) (env.rngF 1)
        let α := env.hash (pre 1 [cm W, cm R])
        let P1 := blindPoly (3 * c) (3 * c - cs.nmul + 1) (env.rngF 2)
          (povBase c cs.nadd cs.nmul env.gamma ζ ζ1 α W S K I V R)
        let ω := env.hash (pre 1 [cm W, cm R, cm P1])
        (ω ≠ 0 ∨ 0 ∉ ins.idx) →
        ∃ H1 H2 : Polynomial F, H1.degree < ((6 * c - cs.nmul : ℕ) : WithBot ℕ) ∧
          H2.degree < ((6 * c - cs.nmul : ℕ) : WithBot ℕ) ∧
          hadamardLaurent ω (povPolys c cs.nadd cs.nmul env.gamma ζ ζ1 α W S K I V R P1)
            = T (-((6 * c - cs.nmul : ℕ) : ℤ)) * toLaurent H1 + T 1 * toLaurent H2 ∧
          let Ĥ1 := X ^ (D + 1 - (6 * c - cs.nmul)) * H1
          let z := env.hash (pre 1 [cm W, cm R, cm P1, cm Ĥ1, cm H2])
          let G := povGPoly c cs.nadd cs.nmul (D + 1) env.gamma ζ ζ1 α ω z (W.eval (ω / z))
            (I.eval (ω / z)) (R.eval (ω / z)) (V.eval z) W S K P1 Ĥ1 H2
          let good := (z ≠ 0 ∧ z ≠ 1 ∧ z ≠ ω ∧ env.gamma * z ≠ 1) ∧ W.natDegree ≠ 0 ∧
            R.natDegree ≠ 0 ∧ G.natDegree ≠ 0
          (good → ∃ π, povProve env pk ins w = .ok π ∧ povVerify env vk ins π = .ok ()) ∧
          (¬ good → povProve env pk ins w = .error .panic)) := by
  have hcl : 0 < cs.consts.length := List.length_pos_of_ne_nil hne
  obtain ⟨hgate, hwire, hinst⟩ := (C27_satisfy cs ins w hsh).1.mp hsat
  have lv : (povVec w).length = 3 * c := by
    obtain ⟨s0, s1, s2⟩ := hsh; simp [povVec, s0, s1, s2]; omega
  have hwr : ∀ p ∈ cs.wires, p.1 < 3 * c ∧ p.2 < 3 * c := by
    intro p hp
    obtain ⟨a, h1, h2⟩ := hwire p hp
    obtain ⟨h1, -⟩ := List.getElem?_eq_some_iff.mp h1
    obtain ⟨h2, -⟩ := List.getElem?_eq_some_iff.mp h2
    omega
  exact pov_complete env hf hγ β g h D pp hs cs hne c hc hD hfft ins hlen hnd w hsh hgate hinst hwr
    (fun k _ => invariant_of_wiring cs w hwire k)

/-- **C41 (deviation).** A system without constant gates cannot be indexed. -/
theorem C41_no_constants (γ : F) (pp : UniversalParams G1 G2) (cs : POV F) (hne : cs.consts = []) :
    povIndex γ pp cs = .error .panic := by
  have hcv : ∀ (p : List G1) (d : ℕ), commitVector p ([] : List F) d = .error .panic := by
    intro p d
    unfold commitVector vectorToCommitment
    unfold sliceFrom
    split_ifs <;> rfl
  unfold povIndex assertR
  by_cases h1 : pp.powersOfG.length > povMaxDegree cs.getSize
  · simp only [bind, Except.bind, if_pos h1]
    rcases hp : permutationVectorFromWires γ cs.wires (3 * cs.getSize.n) with e | sigma
    · have : e = .panic := by
        have h3 := C11_abort γ cs.wires (3 * cs.getSize.n)
        by_cases hbad : γ = 0 ∨ ∃ p ∈ cs.wires, ¬ (p.1 < 3 * cs.getSize.n ∧ p.2 < 3 * cs.getSize.n)
        · have h4 := h3.mpr hbad
          push_cast at h4
          rw [hp] at h4
          exact Except.error.inj h4
        · push Not at hbad
          obtain ⟨v, hv, -⟩ := C11_vector γ hbad.1 cs.wires (3 * cs.getSize.n) hbad.2
          push_cast at hv
          rw [hp] at hv; cases hv
      rw [this]
    · dsimp only
      rcases hc : commitVector pp.powersOfG sigma (3 * cs.getSize.n) with e | cmS
      · have : e = .panic := by
          unfold commitVector unwrapC at hc
          split at hc
          · cases hc
          · exact (Except.error.inj hc).symm
        rw [this]
      · simp only [hne, hcv]
  · simp only [bind, Except.bind, if_neg h1]

/-! The hypotheses of C41 hold for a system with one multiplication, one addition and one constant
gate over the field with 97 elements, and the run there is not degenerate. -/

/-- Keys, proof and verification of a concrete run. -/
def povRun97 (cs : POV K97) (x : POVInstance K97) (w : POVWitness K97) : Res Unit := do
  let pp ← kzgSetup 30 (33 : K97) (1 : K97) (1 : K97)
  let keys ← povIndex env97.gamma pp cs
  let π ← povProve env97 keys.1 x w
  povVerify env97 keys.2 x π

example : povRun97 ⟨[5], [(0, 4), (3, 8)], 1, 1⟩ ⟨[6], [10]⟩ ⟨[2, 1, 0], [5, 2, 0], [10, 3, 5]⟩
    = .ok () := by decide +kernel

example : (⟨[5], [(0, 4), (3, 8)], 1, 1⟩ : POV K97).satisfy ⟨[6], [10]⟩
    ⟨[2, 1, 0], [5, 2, 0], [10, 3, 5]⟩ = .ok true := by decide +kernel

example : PovShape (⟨[5], [(0, 4), (3, 8)], 1, 1⟩ : POV K97) ⟨[2, 1, 0], [5, 2, 0], [10, 3, 5]⟩ := by
  refine ⟨?_, ?_, ?_⟩ <;> rfl

/-- With a witness that breaks an addition gate the prover panics. -/
example : povRun97 ⟨[5], [(0, 4), (3, 8)], 1, 1⟩ ⟨[6], [10]⟩ ⟨[2, 1, 0], [5, 2, 0], [10, 4, 5]⟩
    ≠ .ok () := by decide +kernel

/-- With a witness that breaks only a copy constraint the prover panics. -/
example : povRun97 ⟨[5], [(0, 4), (3, 8)], 1, 1⟩ ⟨[6], [10]⟩ ⟨[2, 1, 0], [5, 3, 0], [10, 4, 5]⟩
    ≠ .ok () := by decide +kernel

end VO
