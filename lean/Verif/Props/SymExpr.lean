import Verif.Spec.SymExpr
import Mathlib.Data.Rat.Floor
import Mathlib.Data.Rat.Cast.Order
import Mathlib.Tactic.Linarith
import Mathlib.Tactic.Ring
import Mathlib.Data.List.Nodup

/-!
# C13: shape expressions keep their value

The affine expression built for a symbolic dimension evaluates, under every assignment of the
symbols, to the value of the original symbolic expression; an expression outside the supported
fragment is an error, never a wrong expression.
-/

namespace Verif

open SymExpr

namespace SymExpr

theorem fitsInt64_iff {k : Int} : fitsInt64 k = true ↔ IsInt64 k := by
  simp [fitsInt64, IsInt64]

theorem ratMod_int (x y : Int) (hy : 0 < y) : ratMod (x : Rat) (y : Rat) = ((x % y : Int) : Rat) := by
  have h : ((x : Rat) / (y : Rat)).floor = x / y := by
    have hy' : (0 : Int) ≤ y := le_of_lt hy
    obtain ⟨n, rfl⟩ := Int.eq_ofNat_of_zero_le hy'
    have := Rat.floor_intCast_div_natCast x n
    exact this
  unfold ratMod
  rw [h]
  have := Int.emod_add_mul_ediv x y
  have h2 : ((x % y : Int) : Rat) + (y : Rat) * ((x / y : Int) : Rat) = (x : Rat) := by
    exact_mod_cast this
  linarith

theorem powFold_value {σ : Nat → Int} {b : Aff} {n : Nat} {acc : Aff} {v : Int}
    (h : (powFold b n acc).value σ = some v) :
    ∃ x, acc.value σ = some x ∧ (n = 0 ∧ v = x ∨ ∃ y, b.value σ = some y ∧ v = x * y ^ n) := by
  induction n generalizing acc with
  | zero => exact ⟨v, h, Or.inl ⟨rfl, rfl⟩⟩
  | succ n ih =>
    obtain ⟨x, hx, h'⟩ := ih h
    unfold Aff.value at hx
    split at hx
    · rename_i p q hp hq
      cases hx
      refine ⟨p, hp, Or.inr ⟨q, hq, ?_⟩⟩
      rcases h' with ⟨rfl, rfl⟩ | ⟨y, hy, rfl⟩
      · ring
      · rw [hq] at hy; cases hy; ring
    · cases hx

theorem powFold_defined {σ : Nat → Int} {b : Aff} {n : Nat} {acc : Aff} {x y : Int}
    (ha : acc.value σ = some x) (hb : b.value σ = some y) :
    ∃ v, (powFold b n acc).value σ = some v := by
  induction n generalizing acc x with
  | zero => exact ⟨x, ha⟩
  | succ n ih => exact ih (acc := .mul acc b) (x := x * y) (by simp [Aff.value, ha, hb])

/-- The symbols occurring in the expression get the same value on both sides. -/
def Agree (m : List (String × Nat)) (σ : Nat → Int) (ρ : Symbol → Int) (l : List Symbol) : Prop :=
  ∀ s ∈ l, ∀ i, dictGet m s.name = some i → σ i = ρ s

section
variable {m : List (String × Nat)} {σ : Nat → Int} {ρ : Symbol → Int} {opq : Sym → Rat}

theorem Agree.left {l₁ l₂ : List Symbol} (h : Agree m σ ρ (l₁ ++ l₂)) : Agree m σ ρ l₁ :=
  fun s hs => h s (List.mem_append_left _ hs)

theorem Agree.right {l₁ l₂ : List Symbol} (h : Agree m σ ρ (l₁ ++ l₂)) : Agree m σ ρ l₂ :=
  fun s hs => h s (List.mem_append_right _ hs)

mutual
theorem toAffine_value (e : Sym) (hag : Agree m σ ρ e.free) {a : Aff} (h : toAffine m e = .ok a)
    {v : Int} (hv : a.value σ = some v) : (v : Rat) = e.value opq ρ := by
  match e, hag, h with
  | .sym s, hag, h =>
    unfold toAffine at h
    split at h
    · rename_i i hi
      cases h
      unfold Aff.value at hv; cases hv
      unfold Sym.value
      rw [hag s (by simp [Sym.free]) i hi]
    · cases h
  | .int k, _, h =>
    unfold toAffine at h
    split at h
    · cases h; unfold Aff.value at hv; cases hv; rfl
    · cases h
  | .add args, hag, h =>
    unfold toAffine at h
    obtain ⟨x, hx, hs⟩ := addFold_value args (by simpa [Sym.free] using hag) h hv
    unfold Aff.value at hx; cases hx
    unfold Sym.value
    rw [hs]; push_cast; ring
  | .mul args, hag, h =>
    unfold toAffine at h
    obtain ⟨x, hx, hs⟩ := mulFold_value args (by simpa [Sym.free] using hag) h hv
    unfold Aff.value at hx; cases hx
    unfold Sym.value
    rw [hs]; push_cast; ring
  | .pow b e, hag, h =>
    unfold toAffine at h
    split at h
    · rename_i k
      split at h
      · rename_i hk
        split at h
        · rename_i b' hb
          cases h
          obtain ⟨x, hx, h'⟩ := powFold_value hv
          unfold Aff.value at hx; cases hx
          rcases h' with ⟨h0, -⟩ | ⟨y, hy, rfl⟩
          · omega
          · have := toAffine_value b (fun s hs => hag s (by simp [Sym.free, hs])) hb hy
            unfold Sym.value
            simp only [ratPow]
            rw [if_pos (le_of_lt hk), ← this]
            push_cast; ring
        · cases h
      · cases h
    · cases h
  | .mod p q, hag, h =>
    unfold toAffine at h
    split at h
    · cases h
    · rename_i p' hp
      split at h
      · cases h
      · rename_i q' hq
        cases h
        unfold Aff.value at hv
        split at hv
        · rename_i x y hx hy
          split at hv
          · rename_i hpos
            cases hv
            have h1 := toAffine_value p (Agree.left (by simpa [Sym.free] using hag)) hp hx
            have h2 := toAffine_value q (Agree.right (by simpa [Sym.free] using hag)) hq hy
            unfold Sym.value
            rw [← h1, ← h2, ratMod_int x y hpos]
          · cases hv
        · cases hv
  | .other c args, _, h => unfold toAffine at h; cases h

theorem addFold_value (l : List Sym) (hag : Agree m σ ρ (freeList l)) {acc a : Aff}
    (h : addFold m l acc = .ok a) {v : Int} (hv : a.value σ = some v) :
    ∃ x, acc.value σ = some x ∧ (v : Rat) = x + sumValue opq ρ l := by
  match l, hag, h with
  | [], _, h => unfold addFold at h; cases h; exact ⟨v, hv, by unfold sumValue; ring⟩
  | e :: es, hag, h =>
    unfold addFold at h
    split at h
    · rename_i b hb
      unfold freeList at hag
      obtain ⟨x, hx, hs⟩ := addFold_value es hag.right h hv
      unfold Aff.value at hx
      split at hx
      · rename_i p q hp hq
        cases hx
        have := toAffine_value e hag.left hb hq
        refine ⟨p, hp, ?_⟩
        unfold sumValue
        rw [hs, ← this]; push_cast; ring
      · cases hx
    · cases h

theorem mulFold_value (l : List Sym) (hag : Agree m σ ρ (freeList l)) {acc a : Aff}
    (h : mulFold m l acc = .ok a) {v : Int} (hv : a.value σ = some v) :
    ∃ x, acc.value σ = some x ∧ (v : Rat) = x * prodValue opq ρ l := by
  match l, hag, h with
  | [], _, h => unfold mulFold at h; cases h; exact ⟨v, hv, by unfold prodValue; ring⟩
  | e :: es, hag, h =>
    unfold mulFold at h
    split at h
    · rename_i b hb
      unfold freeList at hag
      obtain ⟨x, hx, hs⟩ := mulFold_value es hag.right h hv
      unfold Aff.value at hx
      split at hx
      · rename_i p q hp hq
        cases hx
        have := toAffine_value e hag.left hb hq
        refine ⟨p, hp, ?_⟩
        unfold prodValue
        rw [hs, ← this]; push_cast; ring
      · cases hx
    · cases h
end

mutual
theorem toAffine_defined (e : Sym) (hag : Agree m σ ρ e.free) {a : Aff} (h : toAffine m e = .ok a)
    (hm : e.ModsOk opq ρ) : ∃ v, a.value σ = some v := by
  match e, hag, h, hm with
  | .sym s, hag, h, _ =>
    unfold toAffine at h
    split at h
    · cases h; exact ⟨_, rfl⟩
    · cases h
  | .int k, _, h, _ =>
    unfold toAffine at h
    split at h
    · cases h; exact ⟨_, rfl⟩
    · cases h
  | .add args, hag, h, hm =>
    unfold toAffine at h
    exact addFold_defined args (by simpa [Sym.free] using hag) h rfl (by simpa [Sym.ModsOk] using hm)
  | .mul args, hag, h, hm =>
    unfold toAffine at h
    exact mulFold_defined args (by simpa [Sym.free] using hag) h rfl (by simpa [Sym.ModsOk] using hm)
  | .pow b e, hag, h, hm =>
    unfold toAffine at h
    split at h
    · split at h
      · split at h
        · rename_i b' hb
          cases h
          obtain ⟨y, hy⟩ := toAffine_defined b (fun s hs => hag s (by simp [Sym.free, hs])) hb
            (by simpa [Sym.ModsOk] using hm)
          exact powFold_defined (x := 1) rfl hy
        · cases h
      · cases h
    · cases h
  | .mod p q, hag, h, hm =>
    unfold toAffine at h
    split at h
    · cases h
    · rename_i p' hp
      split at h
      · cases h
      · rename_i q' hq
        cases h
        unfold Sym.ModsOk at hm
        have hag' : Agree m σ ρ (p.free ++ q.free) := by simpa [Sym.free] using hag
        obtain ⟨x, hx⟩ := toAffine_defined p hag'.left hp hm.1
        obtain ⟨y, hy⟩ := toAffine_defined q hag'.right hq hm.2.1
        have h2 := toAffine_value (opq := opq) q hag'.right hq hy
        have hpos : 0 < y := by
          have := hm.2.2
          rw [← h2] at this
          exact_mod_cast this
        exact ⟨x % y, by simp [Aff.value, hx, hy, hpos]⟩
  | .other c args, _, h, _ => unfold toAffine at h; cases h

theorem addFold_defined (l : List Sym) (hag : Agree m σ ρ (freeList l)) {acc a : Aff} {x : Int}
    (h : addFold m l acc = .ok a) (hx : acc.value σ = some x) (hm : ModsOkAll opq ρ l) :
    ∃ v, a.value σ = some v := by
  match l, hag, h, hm with
  | [], _, h, _ => unfold addFold at h; cases h; exact ⟨x, hx⟩
  | e :: es, hag, h, hm =>
    unfold addFold at h
    unfold ModsOkAll at hm
    split at h
    · rename_i b hb
      unfold freeList at hag
      obtain ⟨y, hy⟩ := toAffine_defined e hag.left hb hm.1
      exact addFold_defined es hag.right h (x := x + y) (by simp [Aff.value, hx, hy]) hm.2
    · cases h

theorem mulFold_defined (l : List Sym) (hag : Agree m σ ρ (freeList l)) {acc a : Aff} {x : Int}
    (h : mulFold m l acc = .ok a) (hx : acc.value σ = some x) (hm : ModsOkAll opq ρ l) :
    ∃ v, a.value σ = some v := by
  match l, hag, h, hm with
  | [], _, h, _ => unfold mulFold at h; cases h; exact ⟨x, hx⟩
  | e :: es, hag, h, hm =>
    unfold mulFold at h
    unfold ModsOkAll at hm
    split at h
    · rename_i b hb
      unfold freeList at hag
      obtain ⟨y, hy⟩ := toAffine_defined e hag.left hb hm.1
      exact mulFold_defined es hag.right h (x := x * y) (by simp [Aff.value, hx, hy]) hm.2
    · cases h
end

mutual
theorem toAffine_supported (e : Sym) {a : Aff} (h : toAffine m e = .ok a) :
    Supported (fun n => ∃ i, dictGet m n = some i) e := by
  match e, h with
  | .sym s, h =>
    unfold toAffine at h
    split at h
    · exact .sym ⟨_, ‹_›⟩
    · cases h
  | .int k, h =>
    unfold toAffine at h
    split at h
    · rename_i hk
      have := fitsInt64_iff.mp hk
      exact .int this.1 this.2
    · cases h
  | .add args, h => unfold toAffine at h; exact .add (addFold_supported args h)
  | .mul args, h => unfold toAffine at h; exact .mul (mulFold_supported args h)
  | .pow b e, h =>
    unfold toAffine at h
    split at h
    · split at h
      · split at h
        · exact .pow (toAffine_supported b ‹_›) ‹_›
        · cases h
      · cases h
    · cases h
  | .mod p q, h =>
    unfold toAffine at h
    split at h
    · cases h
    · split at h
      · cases h
      · exact .mod (toAffine_supported p ‹_›) (toAffine_supported q ‹_›)
  | .other c args, h => unfold toAffine at h; cases h

theorem addFold_supported (l : List Sym) {acc a : Aff} (h : addFold m l acc = .ok a) :
    SupportedAll (fun n => ∃ i, dictGet m n = some i) l := by
  match l, h with
  | [], _ => exact .nil
  | e :: es, h =>
    unfold addFold at h
    split at h
    · exact .cons (toAffine_supported e ‹_›) (addFold_supported es h)
    · cases h

theorem mulFold_supported (l : List Sym) {acc a : Aff} (h : mulFold m l acc = .ok a) :
    SupportedAll (fun n => ∃ i, dictGet m n = some i) l := by
  match l, h with
  | [], _ => exact .nil
  | e :: es, h =>
    unfold mulFold at h
    split at h
    · exact .cons (toAffine_supported e ‹_›) (mulFold_supported es h)
    · cases h
end

mutual
theorem Supported.toAffine {e : Sym} (h : Supported (fun n => ∃ i, dictGet m n = some i) e) :
    ∃ a, toAffine m e = .ok a := by
  match e, h with
  | .sym s, .sym ⟨i, hi⟩ => exact ⟨.sym i, by simp [SymExpr.toAffine, hi]⟩
  | .int k, .int h1 h2 =>
    exact ⟨.const k, by simp [SymExpr.toAffine, fitsInt64_iff.mpr ⟨h1, h2⟩]⟩
  | .add args, .add h =>
    obtain ⟨a, ha⟩ := SupportedAll.addFold h (.const 0)
    exact ⟨a, by simp [SymExpr.toAffine, ha]⟩
  | .mul args, .mul h =>
    obtain ⟨a, ha⟩ := SupportedAll.mulFold h (.const 1)
    exact ⟨a, by simp [SymExpr.toAffine, ha]⟩
  | .pow b (.int k), .pow h hk =>
    obtain ⟨a, ha⟩ := Supported.toAffine h
    exact ⟨_, by simp [SymExpr.toAffine, ha, hk]; rfl⟩
  | .mod p q, .mod h1 h2 =>
    obtain ⟨a, ha⟩ := Supported.toAffine h1
    obtain ⟨b, hb⟩ := Supported.toAffine h2
    exact ⟨.mod a b, by simp [SymExpr.toAffine, ha, hb]⟩

theorem SupportedAll.addFold {l : List Sym}
    (h : SupportedAll (fun n => ∃ i, dictGet m n = some i) l) (acc : Aff) :
    ∃ a, addFold m l acc = .ok a := by
  match l, h with
  | [], .nil => exact ⟨acc, by simp [SymExpr.addFold]⟩
  | e :: es, .cons h1 h2 =>
    obtain ⟨a, ha⟩ := Supported.toAffine h1
    obtain ⟨b, hb⟩ := SupportedAll.addFold h2 (.add acc a)
    exact ⟨b, by simp [SymExpr.addFold, ha, hb]⟩

theorem SupportedAll.mulFold {l : List Sym}
    (h : SupportedAll (fun n => ∃ i, dictGet m n = some i) l) (acc : Aff) :
    ∃ a, mulFold m l acc = .ok a := by
  match l, h with
  | [], .nil => exact ⟨acc, by simp [SymExpr.mulFold]⟩
  | e :: es, .cons h1 h2 =>
    obtain ⟨a, ha⟩ := Supported.toAffine h1
    obtain ⟨b, hb⟩ := SupportedAll.mulFold h2 (.mul acc a)
    exact ⟨b, by simp [SymExpr.mulFold, ha, hb]⟩
end
end

end SymExpr

/-- Whatever the translation returns has, for every assignment, no other value than the original
expression, whatever value the unsupported classes have. -/
theorem C13_value (opq : Sym → Rat) (m : List (String × Nat)) (e : Sym) (a : Aff)
    (h : toAffine m e = .ok a) (ρ : Symbol → Int) (σ : Nat → Int)
    (hσ : ∀ s ∈ e.free, ∀ i, dictGet m s.name = some i → σ i = ρ s)
    (v : Int) (hv : a.value σ = some v) : (v : Rat) = e.value opq ρ :=
  toAffine_value e hσ h hv

/-- It does have a value when the divisors of the remainders are positive. -/
theorem C13_defined (opq : Sym → Rat) (m : List (String × Nat)) (e : Sym) (a : Aff)
    (h : toAffine m e = .ok a) (ρ : Symbol → Int) (σ : Nat → Int)
    (hσ : ∀ s ∈ e.free, ∀ i, dictGet m s.name = some i → σ i = ρ s)
    (hm : e.ModsOk opq ρ) : ∃ v : Int, a.value σ = some v ∧ (v : Rat) = e.value opq ρ :=
  let ⟨v, hv⟩ := toAffine_defined e hσ h hm
  ⟨v, hv, toAffine_value e hσ h hv⟩

/-- The translation succeeds exactly on the supported fragment; everything else raises. -/
theorem C13_supported (m : List (String × Nat)) (e : Sym) :
    (∃ a, toAffine m e = .ok a) ↔ Supported (fun n => ∃ i, dictGet m n = some i) e :=
  ⟨fun ⟨_, h⟩ => toAffine_supported e h, fun h => h.toAffine⟩

namespace SymExprDemo
def s0 : Symbol := ⟨"s0", 0⟩
def s1 : Symbol := ⟨"s1", 0⟩
/-- `2*s0**2 + Mod(s1, s0) - 1` -/
def e : Sym := .add [.mul [.int 2, .pow (.sym s0) (.int 2)], .mod (.sym s1) (.sym s0), .int (-1)]
end SymExprDemo

open SymExprDemo in
/-- `2*s0**2 + s1 % s0 - 1` at `s0 = 3`, `s1 = 7` is `18`. -/
example : ∃ a, toAffine [("s0", 0), ("s1", 1)] e = .ok a ∧
    a.value (fun i => if i = 0 then 3 else 7) = some 18 := ⟨_, rfl, rfl⟩

open SymExprDemo in
/-- A quotient (`s0 * s1**-1`) and a symbolic exponent are refused. -/
example : toAffine [("s0", 0), ("s1", 1)] (.mul [.sym s0, .pow (.sym s1) (.int (-1))])
      = .error .assertion ∧
    toAffine [("s0", 0), ("s1", 1)] (.pow (.sym s0) (.sym s1)) = .error .assertion ∧
    toAffine [("s0", 0)] (.add [.sym s0, .other "FloorDiv" [.sym s0, .int 2]])
      = .error .notImplemented := ⟨rfl, rfl, rfl⟩

end Verif
