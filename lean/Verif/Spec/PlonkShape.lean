import Verif.Spec.PlonkReach
import Verif.Spec.PlonkSnark
import Verif.Model.PlonkHost

/-
Two uses of `/repo/plonk-core` that build "the same circuit with other values": the same methods in the
same order, with the same variables, selectors, constants and table rows; only witness values, public
input values and blinding values differ.
-/

namespace VO.Spec.Plonk

open VO.Plonk

variable {F : Type} [Field F] [DecidableEq F]

/-- The same public method of the composer, with arguments that differ at most in values: of a new
variable, of a public input (given in both calls or in none), of a point that is not a constant of the
circuit, of blinding. -/
inductive SameCall (R : FieldRep F) (E : EdCurve F) : {α : Type} → CM F α → CM F α → Prop
  | same {α : Type} {m : CM F α} : Method R E m → SameCall R E m m
  | add_input (s s') : SameCall R E (addInput s) (addInput s')
  | poly_gate (a b c q_m q_l q_r q_o q_c) {pi pi' : Option F} : pi.isSome = pi'.isSome →
      SameCall R E (polyGate a b c q_m q_l q_r q_o q_c pi) (polyGate a b c q_m q_l q_r q_o q_c pi')
  | constrain_to_constant (a k) {pi pi' : Option F} : pi.isSome = pi'.isSome →
      SameCall R E (constrainToConstant a k pi) (constrainToConstant a k pi')
  | arithmetic_gate (g : ArithGate F) {pi' : Option F} : g.pi.isSome = pi'.isSome →
      SameCall R E (arithmeticGate g) (arithmeticGate { g with pi := pi' })
  | lookup_gate (a b c d) {pi pi' : Option F} : pi.isSome = pi'.isSome →
      SameCall R E (lookupGate a b c d pi) (lookupGate a b c d pi')
  | add_blinding_factors (r1 r2 r1' r2') :
      SameCall R E (addBlindingFactors r1 r2) (addBlindingFactors r1' r2')
  | add_affine (P P') : SameCall R E (addAffine P) (addAffine P')
  | add_public_affine (P P') : SameCall R E (addPublicAffine P) (addPublicAffine P')
  | assert_equal_public_point (p P P') :
      SameCall R E (assertEqualPublicPoint p P) (assertEqualPublicPoint p P')

/-- The same gadget with other values: what it does next may depend on the variables its calls return,
not on the values of variables, except that such values, and what the gadget computes outside the
composer, may be used as values in later calls. -/
inductive SameGadget (R : FieldRep F) (E : EdCurve F) {β : Type} : CM F β → CM F β → Prop
  | done (b : β) : SameGadget R E (pure b) (pure b)
  | call {α : Type} {m m' : CM F α} {k k' : α → CM F β} : SameCall R E m m' →
      (∀ a, SameGadget R E (k a) (k' a)) → SameGadget R E (m >>= k) (m' >>= k')
  | zero_var {k k' : Var → CM F β} : (∀ z, SameGadget R E (k z) (k' z)) →
      SameGadget R E (zeroVar >>= k) (zeroVar >>= k')
  | value_of_var (x : Var) {k k' : F → CM F β} : (∀ s s', SameGadget R E (k s) (k' s')) →
      SameGadget R E (valueOfVar x >>= k) (valueOfVar x >>= k')
  | outside {α : Type} (r r' : Res α) {k k' : α → CM F β} : (∀ y y', SameGadget R E (k y) (k' y')) →
      SameGadget R E (liftC r >>= k) (liftC r' >>= k')
  | outside_same {α : Type} (r : Res α) {k k' : α → CM F β} : (∀ y, SameGadget R E (k y) (k' y)) →
      SameGadget R E (liftC r >>= k) (liftC r >>= k')

end VO.Spec.Plonk
