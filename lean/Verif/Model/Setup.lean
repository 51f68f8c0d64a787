import Verif.Model.Commitment
/-!
Generation of the keys of the commitment scheme: `universal_setup` and `prepare_keys`.

`kzgSetup` and `kzgTrim` follow `ark_poly_commit` 0.3 (`KZG10::setup` and `SonicKZG10::trim` without degree bounds), which is
not part of the crate. The secret `beta` and the generators `g`, `gammaG`, `h` are drawn from the generator; here they are
arguments.
-/
set_option autoImplicit false
namespace ZK

section
variable {F : Type} [Field F] {G G2 : Type} [AddCommGroup G] [Module F G] [AddCommGroup G2] [Module F G2]

inductive SetupErr where
  | degreeIsZero
  | trimmingDegreeTooLarge
  deriving DecidableEq, Repr

/-- `UniversalParams`. The map of the powers of `gamma_g` has the keys `0 ..= max_degree + 1`. -/
structure KzgSrs (G G2 : Type) where
  powers : List G
  gammaPowers : List G
  h : G2
  betaH : G2

/-- `UniversalParams::max_degree`. -/
def KzgSrs.maxDegree (srs : KzgSrs G G2) : Nat := srs.powers.length - 1

/-- `KZG10::setup`. One more power of `gamma_g` is added. -/
def kzgSetup (maxDegree : Nat) (beta : F) (g gammaG : G) (h : G2) : Res SetupErr (KzgSrs G G2) :=
  if maxDegree < 1 then .err .degreeIsZero
  else .ok ⟨(List.range (maxDegree + 1)).map (fun i => beta ^ i • g), (List.range (maxDegree + 2)).map (fun i => beta ^ i • gammaG),
    h, beta • h⟩

/-- `SonicKZG10::trim` without enforced degree bounds. -/
def kzgTrim (srs : KzgSrs G G2) (supportedDegree hidingBound : Nat) : Res SetupErr (KzgKey G × KzgVk G G2) :=
  if srs.maxDegree < supportedDegree then .err .trimmingDegreeTooLarge
  else do
    let gs ← Res.mapM (fun i => Res.idx srs.gammaPowers i) (List.range (hidingBound + 2))
    let g ← Res.idx srs.powers 0
    let gg ← Res.idx srs.gammaPowers 0
    pure (⟨srs.powers.take (supportedDegree + 1), gs⟩, ⟨g, gg, srs.h, srs.betaH⟩)

/-- `universal_setup`, src/turbo_plonk.rs 185-190. -/
def universalSetup (maxDegree : Nat) (beta : F) (g gammaG : G) (h : G2) : Res SetupErr (KzgSrs G G2) :=
  kzgSetup maxDegree beta g gammaG h

/-- `prepare_keys`, src/turbo_plonk.rs 192-201: trims to the full degree with hiding bound 1. -/
def prepareKeys (srs : KzgSrs G G2) : Res SetupErr (KzgKey G × KzgVk G G2) := kzgTrim srs srs.maxDegree 1

end
end ZK
