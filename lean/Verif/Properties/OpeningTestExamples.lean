import Verif.Properties.OpeningTest
/-! Concrete runs for C87: `test_halo2_book_example` with a hash function that is always zero passes, with one that returns an opened point it
panics, and opened at zero it panics for every hash function. -/
set_option autoImplicit false
set_option linter.unusedSectionVars false
namespace ZK
open Polynomial

section
variable {G G2 GT : Type} [AddCommGroup G] [Module Fr G] [AddCommGroup G2] [Module Fr G2] [AddCommGroup GT] [Module Fr GT] [DecidableEq GT]

theorem Fr381.ne_zero_13131 : (13131 : Fr) ≠ 0 := by
  intro h
  have h : ((13131 : Nat) : ZMod Fr381.r) = 0 := h
  have := Nat.le_of_dvd (by norm_num) ((ZMod.natCast_eq_zero_iff _ _).1 h)
  norm_num [Fr381.r] at this

theorem Fr381.omega_ne_one : (Fr381.dom 4).omega ≠ 1 :=
  (Fr381.dom_ok (by norm_num)).prim.ne_one (by show 1 < 2 ^ 4; norm_num)

variable (e : G →ₗ[Fr] G2 →ₗ[Fr] GT) (env : KzgEnv Fr G) {secret : Fr} {g gammaG : G} {h : G2} {srs : KzgSrs G G2} {ck : KzgKey G}
  {vk : KzgVk G G2}

theorem C87_example_zero (hsrs : universalSetup 30 secret g gammaG h = .ok srs) (hkeys : prepareKeys srs = .ok (ck, vk)) (z : env.Z) :
    openingTest ((kzgScheme e env).hashing (fun _ => 0)) ck vk (halo2Book (Fr381.dom 4) 13131 [1, 2] [3] [4, 5, 6] [7]) z = .ok () := by
  have hf := fromSetup_of_keys hsrs hkeys
  have h3 : 3 ≤ ck.gammaPowers.length := by rw [hf.gammaPowers]; exact le_rfl
  have hok : (Fr381.dom 4).Ok := Fr381.dom_ok (by norm_num)
  obtain ⟨com, hS⟩ : ∃ com, HomomorphicScheme (kzgScheme e env) ck vk com := ⟨_, C44_homomorphic e env hf.kzgSetup h3⟩
  have hn := C52_kzg_supports e env (key := ck) (n := 16) (by norm_num) (by rw [hf.powers]; simp) h3
  obtain ⟨cs, z1, f, r, -, h1, -⟩ := C87_outcome (S := (kzgScheme e env).hashing (fun _ => 0)) (ck := ck) (vk := vk) (com := com)
    ⟨hS.commit, hS.zero, hS.add, hS.scale, hS.opens⟩ hok ⟨hn.commit, hn.commitPlain, hn.open_⟩
    (halo2Book_wellformed (d := Fr381.dom 4) rfl 13131 (a := [1, 2]) (b := [3]) (c := [4, 5, 6]) (e := [7]) (by simp) (by simp) (by simp)
      (by simp))
    (halo2Book_separated Fr381.ne_zero_13131 Fr381.omega_ne_one _ _ _ _) z
  refine h1 ?_
  rw [halo2Book_opened]
  rintro (h0 | h0)
  · exact Fr381.ne_zero_13131 h0.symm
  · exact mul_ne_zero Fr381.ne_zero_13131 (hok.prim.ne_zero (by show 2 ^ 4 ≠ 0; norm_num)) (Eq.symm h0)

theorem C87_example_point (hsrs : universalSetup 30 secret g gammaG h = .ok srs) (hkeys : prepareKeys srs = .ok (ck, vk)) (z : env.Z) :
    openingTest ((kzgScheme e env).hashing (fun _ => 13131)) ck vk (halo2Book (Fr381.dom 4) 13131 [1, 2] [3] [4, 5, 6] [7]) z = .panic := by
  have hf := fromSetup_of_keys hsrs hkeys
  have h3 : 3 ≤ ck.gammaPowers.length := by rw [hf.gammaPowers]; exact le_rfl
  have hok : (Fr381.dom 4).Ok := Fr381.dom_ok (by norm_num)
  obtain ⟨com, hS⟩ : ∃ com, HomomorphicScheme (kzgScheme e env) ck vk com := ⟨_, C44_homomorphic e env hf.kzgSetup h3⟩
  have hn := C52_kzg_supports e env (key := ck) (n := 16) (by norm_num) (by rw [hf.powers]; simp) h3
  obtain ⟨cs, z1, f, r, -, -, h1⟩ := C87_outcome (S := (kzgScheme e env).hashing (fun _ => 13131)) (ck := ck) (vk := vk) (com := com)
    ⟨hS.commit, hS.zero, hS.add, hS.scale, hS.opens⟩ hok ⟨hn.commit, hn.commitPlain, hn.open_⟩
    (halo2Book_wellformed (d := Fr381.dom 4) rfl 13131 (a := [1, 2]) (b := [3]) (c := [4, 5, 6]) (e := [7]) (by simp) (by simp) (by simp)
      (by simp))
    (halo2Book_separated Fr381.ne_zero_13131 Fr381.omega_ne_one _ _ _ _) z
  refine h1 ?_
  rw [halo2Book_opened]
  exact Or.inl rfl

theorem C87_example_at_zero (hsrs : universalSetup 30 secret g gammaG h = .ok srs) (hkeys : prepareKeys srs = .ok (ck, vk)) (z : env.Z) :
    openingTest (kzgScheme e env) ck vk (halo2Book (Fr381.dom 4) 0 [1, 2] [3] [4, 5, 6] [7]) z = .panic := by
  have hf := fromSetup_of_keys hsrs hkeys
  have h3 : 3 ≤ ck.gammaPowers.length := by rw [hf.gammaPowers]; exact le_rfl
  have hok : (Fr381.dom 4).Ok := Fr381.dom_ok (by norm_num)
  refine C87_repeated (S := kzgScheme e env) (C44_homomorphic e env hf.kzgSetup h3) hok
    (C52_kzg_supports e env (key := ck) (n := 16) (by norm_num) (by rw [hf.powers]; simp) h3)
    (halo2Book_wellformed (d := Fr381.dom 4) rfl 0 (by simp) (by simp) (by simp) (by simp)) ?_ z
  intro h
  have := h ⟨bytes "c", [4, 5, 6], [Rotation.curr, Rotation.next], [0, (Fr381.dom 4).element 1 * 0]⟩ (by simp [halo2Book])
    Rotation.curr (by simp) Rotation.next (by simp) (by show (0 : Fr) * _ = 0 * _; rw [zero_mul, zero_mul])
  cases this

end
end ZK
