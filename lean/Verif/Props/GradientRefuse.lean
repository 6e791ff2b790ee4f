import Verif.Props.Gradient
import Verif.Props.DiskImport

/-! # Gradients with a single digit are refused (C109); cancelled imports into stores on disk fail (C100) -/
namespace Verif.Props
open Verif.Gradient Verif.GradientSpec Verif.Color

/-- C109 is violated for percentages of one digit without a sign: the digit is taken for the sign, and the gradient is refused as the rest is no number. -/
theorem C109_violated_digit {K : Type} [Field K] (cast : List Char → Option K) (hc : cast [] = none) :
    loadGradient cast "gradient(red, lime 5, blue)".toList = .throw "bad_lexical_cast" := by
  have hs : search gradientRe (body "gradient(red, lime 5, blue)".toList).length (body "gradient(red, lime 5, blue)".toList) =
    [['r', 'e', 'd'], ['l', 'i', 'm', 'e', ' ', '5'], ['b', 'l', 'u', 'e']] := by decide +kernel
  have w1 : words ['r', 'e', 'd'] = [['r', 'e', 'd']] := by decide
  have w2 : words ['l', 'i', 'm', 'e', ' ', '5'] = [['l', 'i', 'm', 'e'], ['5']] := by decide
  have c1 : parseColor ['r', 'e', 'd'] = .ok ⟨255, 0, 0, 255⟩ := by decide +kernel
  have c2 : parseColor ['l', 'i', 'm', 'e'] = .ok ⟨0, 255, 0, 255⟩ := by decide +kernel
  rw [loadGradient, parseGradient, hs]
  simp [stops, stop, w1, w2, c1, c2, Outcome.bind, times, hc]

/-- C100: a cancelled import of a file for levels of detail into a store on disk always fails. -/
theorem C100_violated_cancelled {K : Type} [LinearOrder K] (d : DiskImport.Doubles) (tokens : PersistentStore.El → List UInt32) (g : QuadKey → UInt32)
    (m : GeoStore.Map K PersistentStore.Store) (A : GeoStoreSpec.Stores K PersistentStore.Store) (hm : GeoStoreProof.Abs m A) (k : K) (s : PersistentStore.Store) (hk : A k = some s)
    (file : Option (List (List (QuadKey × Clipper.El)))) :
    (∀ s, (DiskImport.diskIface d tokens g).eraseRange s = .throw "domain_error") ∧
    GeoStoreSpec.Failed (GeoStore.step (DiskImport.diskIface d tokens g) m (.addFile k file .range true)).2 :=
  ⟨fun _ => rfl, C21_range_always_fails (DiskImport.diskIface d tokens g) (fun _ => rfl) m A hm k s hk file⟩

/-- Casts which refuse the empty text exist, and a store on disk can be registered, as both theorems ask for. -/
example : (∃ cast : List Char → Option ℚ, cast [] = none ∧ cast ['5'] = some 5) ∧
    ∀ s : PersistentStore.Store, ∃ A : GeoStoreSpec.Stores Nat PersistentStore.Store, GeoStoreProof.Abs [(0, some s)] A ∧ A 0 = some s := by
  refine ⟨⟨fun l => if l = ['5'] then some 5 else none, by simp, by simp⟩, fun s => ⟨fun k => if k = 0 then some s else none, ⟨by simp, ?_⟩, by simp⟩⟩
  intro k p
  by_cases h : k = 0 <;> simp [h]

end Verif.Props
