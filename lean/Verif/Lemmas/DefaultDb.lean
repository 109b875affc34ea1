import Verif.Lemmas.Json
import Verif.Model.DefaultDb
/-! The shipped data base is well formed (for C85). -/
namespace Oelint
open Spec

mutual
/-- equality of values -/
def J.same : J → J → Bool
  | .dict a, .dict b => KV.same a b
  | .list a, .list b => a == b
  | .str a, .str b => a == b
  | _, _ => false
/-- equality of dictionaries, with the order of their keys -/
def KV.same : KV → KV → Bool
  | .nil, .nil => true
  | .cons k v r, .cons k' v' r' => k == k' && J.same v v' && KV.same r r'
  | _, _ => false
end

mutual
theorem J.same_eq : ∀ a b : J, J.same a b = true → a = b
  | .dict a, .dict b, h => by rw [J.same] at h; rw [KV.same_eq a b h]
  | .list a, .list b, h => by rw [J.same] at h; rw [eq_of_beq h]
  | .str a, .str b, h => by rw [J.same] at h; rw [eq_of_beq h]
  | .dict _, .list _, h | .dict _, .str _, h | .list _, .dict _, h | .list _, .str _, h | .str _, .dict _, h | .str _, .list _, h => by
    simp [J.same] at h
theorem KV.same_eq : ∀ a b : KV, KV.same a b = true → a = b
  | .nil, .nil, _ => rfl
  | .cons k v r, .cons k' v' r', h => by
    simp only [KV.same, Bool.and_eq_true] at h
    rw [eq_of_beq h.1.1, J.same_eq v v' h.1.2, KV.same_eq r r' h.2]
  | .nil, .cons .., h | .cons .., .nil, h => by simp [KV.same] at h
end

theorem shipped_load : jsonLoad shippedText = some shippedDb := by
  have h : (match jsonLoad shippedText with | some v => J.same v shippedDb | none => false) = true := by decide +kernel
  cases hl : jsonLoad shippedText with
  | none => rw [hl] at h; cases h
  | some v => rw [hl] at h; rw [J.same_eq v _ h]

theorem shipped_text : FileText shippedDb shippedText := jsonLoad_sound (by decide +kernel) shipped_load

end Oelint
