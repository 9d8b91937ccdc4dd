import Verif.Props.SoundError

/-
The prover of `/repo/plonk-core` on values that need not satisfy the circuit: as a strategy.
-/

set_option linter.unusedSectionVars false

namespace VO.Plonk

open VO.Spec VO.Spec.Plonk

variable {F : Type} [Field F] [DecidableEq F]

/-- What comes out of a run, or a default. -/
def outOr {α β : Type} (x : Except PErr α) (f : α → β) (b : β) : β :=
  match x with
  | .ok a => f a
  | .error _ => b

theorem outOr_ok {α β : Type} {x : Except PErr α} {a : α} (h : x = .ok a) (f : α → β) (b : β) :
    outOr x f b = f a := by rw [h]; rfl

section
variable (K : PField F) (E : EdCurve F) (P : PCS F) (D : Dom F) (c : Composer F) (pk : PKey F)
  (r1 : WitRound P)

/-- The second message as a function of the challenges so far. -/
def msg2 (l : List F) : Except PErr (LookRound P) := proveRound2 P D c pk r1 (l.getD 0 0)

/-- The third. -/
def msg3 (l : List F) : Except PErr (LookRound P × AccRound P) := do
  let r2 ← msg2 P D c pk r1 l
  let r3 ← proveRound3 K P D c pk r1 r2 (l.getD 1 0) (l.getD 2 0) (l.getD 3 0) (l.getD 4 0)
  return (r2, r3)

/-- The polynomials of the prover. -/
def polysOf (r1 : WitRound P) (r : LookRound P × AccRound P) : ProverPolys F :=
  ⟨r1.p, r.2.z, r.2.z2, r.2.pi, r.1.f, r.1.table, r.1.h1, r.1.h2⟩

/-- The challenges before `z`. -/
def chalsOf (l : List F) : Chals F :=
  ⟨l.getD 0 0, l.getD 1 0, l.getD 2 0, l.getD 3 0, l.getD 4 0, l.getD 5 0, l.getD 6 0, l.getD 7 0,
    l.getD 8 0, l.getD 9 0, l.getD 10 0, 0, 0, 0⟩

/-- The fourth. -/
def msg4 (l : List F) : Except PErr ((LookRound P × AccRound P) × (Fin 8 → List F) × (Fin 8 → P.Comm)) := do
  let r ← msg3 K P D c pk r1 l
  let t ← proveRound4 K E P D pk (polysOf P r1 r) (chalsOf l)
  return (r, t)

/-- The fifth. -/
def msg5 (l : List F) : Except PErr ((LookRound P × AccRound P) × List F × Evals F) := do
  let r ← msg4 K E P D c pk r1 l
  let e ← linearisation E D pk (polysOf P r1 r.1) r.2.1 { chalsOf l with z := l.getD 11 0 }
  return (r.1, e)

/-- The sixth. -/
def msg6 (l : List F) : Except PErr (P.OProof × P.OProof) := do
  let r ← msg5 K E P D c pk r1 l
  proveOpenings P D pk (polysOf P r1 r.1) r.2.1
    { chalsOf l with z := l.getD 11 0, aw := l.getD 12 0, saw := l.getD 13 0 }

/-- The code of the prover as a strategy. -/
def codeStrategy (e0 : Evals F) (o0 : P.OProof) : PlonkStrategy F P where
  wa := r1.c.a
  wb := r1.c.b
  wc := r1.c.c
  wd := r1.c.d
  f l := outOr (msg2 P D c pk r1 l) (·.fC) r1.c.a
  h1 l := outOr (msg2 P D c pk r1 l) (·.h1C) r1.c.a
  h2 l := outOr (msg2 P D c pk r1 l) (·.h2C) r1.c.a
  z l := outOr (msg3 K P D c pk r1 l) (·.2.zC) r1.c.a
  z2 l := outOr (msg3 K P D c pk r1 l) (·.2.z2C) r1.c.a
  t l := outOr (msg4 K E P D c pk r1 l) (·.2.2) fun _ => r1.c.a
  ev l := outOr (msg5 K E P D c pk r1 l) (·.2.2) e0
  o1 l := outOr (msg6 K E P D c pk r1 l) (·.1) o0
  o2 l := outOr (msg6 K E P D c pk r1 l) (·.2) o0

end

/-- With challenges from a list the code does what the strategy does; the evaluations are those of its
polynomials. -/
theorem code_run {K : PField F} {E : EdCurve F} {P : PCS F} {c : Composer F} {pk : PKey F}
    {tr : Transcript F P.Comm} (htr : tr.countP isChal = 0)
    {zeta beta gamma delta epsilon alpha range logic fixed var lookup zz aw saw : F} {pr : PlonkProof P}
    (h : proveWithPreprocessed K E P (coins [zeta, beta, gamma, delta, epsilon, alpha, range, logic,
      fixed, var, lookup, zz, aw, saw]) c pk tr = .ok pr) :
    ∃ D r1, newDom K (circuitBound c) = .ok D ∧ proveRound1 P D c = .ok r1 ∧
      (∀ e0 o0, pr = (codeStrategy K E P D c pk r1 e0 o0).proof zeta beta gamma delta epsilon alpha range
        logic fixed var lookup zz aw saw) ∧
      ∃ p, pr.ev = honestEvals D pk p zz := by
  unfold proveWithPreprocessed at h
  obtain ⟨D, hD, h⟩ := bind_okE h
  simp only [] at h
  obtain ⟨r1, hr1, h⟩ := bind_okE h
  simp only [challengeAppend, challenge, coins, List.countP_append, List.countP_cons,
    List.countP_nil, isChal, htr, if_true, Bool.false_eq_true, if_false,
    Nat.zero_add, Nat.add_zero, Nat.reduceAdd, Nat.reduceSub, List.getD_cons_zero,
    List.getD_cons_succ] at h
  obtain ⟨r2, hr2, h⟩ := bind_okE h
  obtain ⟨r3, hr3, h⟩ := bind_okE h
  obtain ⟨t, ht, h⟩ := bind_okE h
  obtain ⟨le, hle, h⟩ := bind_okE h
  obtain ⟨o, ho, h⟩ := bind_okE h
  simp only [appendEvals_count, List.countP_append, List.countP_cons,
    List.countP_nil, isChal, htr, if_true, Bool.false_eq_true, if_false,
    Nat.zero_add, Nat.add_zero, Nat.reduceAdd, Nat.reduceSub, List.getD_cons_zero,
    List.getD_cons_succ] at ho
  simp only [pure, Except.pure, Except.ok.injEq] at h
  refine ⟨D, r1, hD, hr1, fun e0 o0 => ?_, ⟨r1.p, r3.z, r3.z2, r3.pi, r2.f, r2.table, r2.h1, r2.h2⟩, ?_⟩
  · have m2 : ∀ l, l.getD 0 0 = zeta → msg2 P D c pk r1 l = .ok r2 := by
      intro l e; unfold msg2; rw [e]; exact hr2
    have m3 : ∀ l, l.getD 0 0 = zeta → l.getD 1 0 = beta → l.getD 2 0 = gamma → l.getD 3 0 = delta →
        l.getD 4 0 = epsilon → msg3 K P D c pk r1 l = .ok (r2, r3) := by
      intro l e0 e1 e2 e3 e4
      unfold msg3; rw [m2 l e0, ok_bind, e1, e2, e3, e4, hr3]; rfl
    have m4 : ∀ l, (∃ l', l = zeta :: beta :: gamma :: delta :: epsilon :: alpha :: range :: logic ::
        fixed :: var :: lookup :: l') → msg4 K E P D c pk r1 l = .ok ((r2, r3), t) := by
      rintro l ⟨l', rfl⟩
      unfold msg4; rw [m3 _ rfl rfl rfl rfl rfl, ok_bind]
      simp only [polysOf, chalsOf, List.getD_cons_zero, List.getD_cons_succ]
      rw [ht]; rfl
    have m5 : ∀ l, (∃ l', l = zeta :: beta :: gamma :: delta :: epsilon :: alpha :: range :: logic ::
        fixed :: var :: lookup :: zz :: l') → msg5 K E P D c pk r1 l = .ok ((r2, r3), le) := by
      rintro l ⟨l', rfl⟩
      unfold msg5; rw [m4 _ ⟨_, rfl⟩, ok_bind]
      simp only [polysOf, chalsOf, List.getD_cons_zero, List.getD_cons_succ]
      rw [hle]; rfl
    have m6 : msg6 K E P D c pk r1 [zeta, beta, gamma, delta, epsilon, alpha, range, logic,
        fixed, var, lookup, zz, aw, saw] = .ok o := by
      unfold msg6; rw [m5 _ ⟨_, rfl⟩, ok_bind]
      simp only [polysOf, chalsOf, List.getD_cons_zero, List.getD_cons_succ]
      exact ho
    rw [← h]
    simp only [PlonkStrategy.proof, codeStrategy, List.cons_append, List.nil_append]
    rw [outOr_ok (m2 _ rfl), outOr_ok (m2 _ rfl), outOr_ok (m2 _ rfl),
      outOr_ok (m3 _ rfl rfl rfl rfl rfl), outOr_ok (m3 _ rfl rfl rfl rfl rfl),
      outOr_ok (m4 _ ⟨_, rfl⟩), outOr_ok (m5 _ ⟨_, rfl⟩), outOr_ok m6, outOr_ok m6]
  · rw [← h]
    unfold linearisation at hle
    obtain ⟨l1, -, hle⟩ := bind_okE hle
    obtain ⟨v, -, hle⟩ := bind_okE hle
    obtain ⟨lk, -, hle⟩ := bind_okE hle
    simp only [pure, Except.pure, Except.ok.injEq] at hle
    rw [← hle]
    rfl

end VO.Plonk
