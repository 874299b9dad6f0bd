import Verif.Model.ShapeCore
import Verif.Spec.Broadcast

/-! # Lemmas about broadcasting -/

namespace Verif.Shape

theorem trail_lt {s : List Int} {k : Nat} (h : k < s.length) :
    trail s k = s[s.length - 1 - k]'(by omega) := by
  unfold trail
  rw [List.getElem?_eq_getElem (by simpa using h)]
  simp [List.getElem_reverse]

theorem trail_ge {s : List Int} {k : Nat} (h : s.length ≤ k) : trail s k = 1 := by
  unfold trail
  rw [List.getElem?_eq_none (by simpa using h)]
  rfl

theorem trail_ext {a b : List Int} (hl : a.length = b.length) (h : ∀ k, trail a k = trail b k) :
    a = b := by
  apply List.ext_getElem hl
  intro i h1 h2
  have := h (a.length - 1 - i)
  rw [trail_lt (by omega), trail_lt (by omega)] at this
  have e1 : a.length - 1 - (a.length - 1 - i) = i := by omega
  have e2 : b.length - 1 - (a.length - 1 - i) = i := by omega
  simpa only [e1, e2] using this

theorem sizeOrOne_eq {l : List Int} {ndim i : Nat} (hi : i < ndim) (hl : l.length ≤ ndim) :
    sizeOrOne l ((l.length : Int) - 1 - ((ndim : Int) - 1 - i)) = .ok (trail l (ndim - 1 - i)) := by
  unfold sizeOrOne
  by_cases h : ndim - 1 - i < l.length
  · rw [trail_lt h]
    have e : (l.length : Int) - 1 - ((ndim : Int) - 1 - i) = ((l.length - 1 - (ndim - 1 - i) : Nat) : Int) := by
      omega
    rw [e, if_pos (by omega), pyGet_nonneg _ _ (by omega)]
  · rw [trail_ge (by omega), if_neg (by omega)]

theorem broadcastAt_eq {a b : List Int} {i : Nat} (hi : i < max a.length b.length) :
    broadcastAt a b (max a.length b.length) i =
      let x := trail a (max a.length b.length - 1 - i)
      let y := trail b (max a.length b.length - 1 - i)
      if x ≠ y ∧ x ≠ 1 ∧ y ≠ 1 then .error .assertion else .ok (if x = 1 then y else x) := by
  unfold broadcastAt
  simp only [sizeOrOne_eq hi (Nat.le_max_left _ _), sizeOrOne_eq hi (Nat.le_max_right _ _)]

theorem common_iff {x y z : Int} :
    Common x y z ↔ (if x ≠ y ∧ x ≠ 1 ∧ y ≠ 1 then (.error .assertion : Py Int)
      else .ok (if x = 1 then y else x)) = .ok z := by
  unfold Common
  by_cases h : x ≠ y ∧ x ≠ 1 ∧ y ≠ 1
  · rw [if_pos h]
    obtain ⟨h1, h2, h3⟩ := h
    simp [h1, h2, h3]
  · rw [if_neg h]
    simp only [Except.ok.injEq]
    split
    · omega
    · omega

theorem broadcast_iff (a b c : List Int) : broadcast a b = .ok c ↔ IsBroadcast a b c := by
  unfold broadcast
  simp only []
  rw [pyMap_ok_iff]
  simp only [List.length_range, List.getElem_range]
  unfold IsBroadcast
  constructor
  · rintro ⟨hl, h⟩
    refine ⟨hl, fun k => ?_⟩
    by_cases hk : k < max a.length b.length
    · have := h (max a.length b.length - 1 - k) (by omega) (by omega)
      rw [broadcastAt_eq (by omega)] at this
      have e : max a.length b.length - 1 - (max a.length b.length - 1 - k) = k := by omega
      simp only [e] at this
      rw [common_iff, trail_lt (s := c) (by omega)]
      simp only [hl]
      exact this
    · rw [trail_ge (by omega), trail_ge (by omega), trail_ge (by omega)]
      exact Or.inl ⟨rfl, rfl⟩
  · rintro ⟨hl, h⟩
    refine ⟨hl, fun i h1 h2 => ?_⟩
    rw [broadcastAt_eq h1]
    have := h (max a.length b.length - 1 - i)
    rw [common_iff, trail_lt (s := c) (by omega)] at this
    simp only [hl] at this
    have e : max a.length b.length - 1 - (max a.length b.length - 1 - i) = i := by omega
    simp only [e] at this
    exact this

theorem broadcast_error {a b : List Int} {e : PyErr} (h : broadcast a b = .error e) :
    e = .assertion := by
  unfold broadcast at h
  obtain ⟨i, hi, h⟩ := pyMap_error h
  rw [broadcastAt_eq (by simpa using hi)] at h
  simp only [] at h
  split at h
  · cases h; rfl
  · cases h

theorem Common.unique {x y z z' : Int} (h : Common x y z) (h' : Common x y z') : z = z' := by
  unfold Common at *; omega

theorem IsBroadcast.unique {a b c c' : List Int} (h : IsBroadcast a b c) (h' : IsBroadcast a b c') :
    c = c' :=
  trail_ext (h.1.trans h'.1.symm) (fun k => (h.2 k).unique (h'.2 k))

theorem IsBroadcast.symm {a b c : List Int} (h : IsBroadcast a b c) : IsBroadcast b a c :=
  ⟨by rw [h.1, Nat.max_comm], fun k => by have := h.2 k; unfold Common at *; omega⟩

theorem broadcast_exists_iff (a b : List Int) : (∃ c, broadcast a b = .ok c) ↔ Compatible a b := by
  constructor
  · rintro ⟨c, h⟩ k
    have := ((broadcast_iff a b c).mp h).2 k
    unfold Common at this
    omega
  · intro h
    unfold broadcast
    rw [pyMap_exists_iff]
    intro i hi
    rw [broadcastAt_eq (by simpa using hi)]
    have := h (max a.length b.length - 1 - i)
    simp only []
    rw [if_neg (by omega)]
    exact ⟨_, rfl⟩

theorem broadcast_comm (a b : List Int) : broadcast a b = broadcast b a := by
  cases h : broadcast a b with
  | ok c => exact ((broadcast_iff b a c).mpr ((broadcast_iff a b c).mp h).symm).symm
  | error e =>
    cases h' : broadcast b a with
    | ok c =>
      rw [(broadcast_iff a b c).mpr ((broadcast_iff b a c).mp h').symm] at h
      cases h
    | error e' => rw [broadcast_error h, broadcast_error h']

/-- Three-way broadcasting grouped to the left. -/
theorem isBroadcast_left {a b c d : List Int} :
    (∃ ab, IsBroadcast a b ab ∧ IsBroadcast ab c d) ↔
      d.length = max (max a.length b.length) c.length ∧
      ∀ k, ∃ x, Common (trail a k) (trail b k) x ∧ Common x (trail c k) (trail d k) := by
  constructor
  · rintro ⟨ab, h1, h2⟩
    exact ⟨by rw [h2.1, h1.1], fun k => ⟨_, h1.2 k, h2.2 k⟩⟩
  · rintro ⟨hl, h⟩
    have hc : Compatible a b := fun k => by
      obtain ⟨x, hx, _⟩ := h k
      unfold Common at hx; omega
    obtain ⟨ab, hab⟩ := (broadcast_exists_iff a b).mpr hc
    have hab := (broadcast_iff a b ab).mp hab
    refine ⟨ab, hab, by rw [hl, hab.1], fun k => ?_⟩
    obtain ⟨x, hx, hx'⟩ := h k
    rwa [(hab.2 k).unique hx]

theorem isBroadcast_assoc {a b c d : List Int} :
    (∃ ab, IsBroadcast a b ab ∧ IsBroadcast ab c d) ↔
      (∃ bc, IsBroadcast b c bc ∧ IsBroadcast a bc d) := by
  have e : (∃ bc, IsBroadcast b c bc ∧ IsBroadcast a bc d) ↔
      (∃ bc, IsBroadcast b c bc ∧ IsBroadcast bc a d) :=
    ⟨fun ⟨x, h, h'⟩ => ⟨x, h, h'.symm⟩, fun ⟨x, h, h'⟩ => ⟨x, h, h'.symm⟩⟩
  rw [e, isBroadcast_left, isBroadcast_left]
  have hm : max (max a.length b.length) c.length = max (max b.length c.length) a.length := by omega
  rw [hm]
  have hk : ∀ (x y z w : Int), (∃ u, Common x y u ∧ Common u z w) ↔ (∃ u, Common y z u ∧ Common u x w) := by
    intro x y z w
    constructor
    · rintro ⟨u, h1, h2⟩
      refine ⟨if y = 1 then z else y, ?_, ?_⟩ <;> unfold Common at * <;> split <;> omega
    · rintro ⟨u, h1, h2⟩
      refine ⟨if x = 1 then y else x, ?_, ?_⟩ <;> unfold Common at * <;> split <;> omega
  simp only [hk]

theorem bind_assertion {x : Py (List Int)} {f : List Int → Py (List Int)} {e : PyErr}
    (hx : ∀ e, x = .error e → e = .assertion) (hf : ∀ y e, f y = .error e → e = .assertion)
    (h : (x >>= f) = .error e) : e = .assertion := by
  cases x with
  | error e' => cases h; exact hx _ rfl
  | ok y => exact hf y e h

theorem broadcast_assoc (a b c : List Int) :
    (broadcast a b >>= fun ab => broadcast ab c) = (broadcast b c >>= fun bc => broadcast a bc) := by
  have key : ∀ d, (broadcast a b >>= fun ab => broadcast ab c) = .ok d ↔
      (broadcast b c >>= fun bc => broadcast a bc) = .ok d := by
    intro d
    simp only [bind_ok, broadcast_iff]
    exact isBroadcast_assoc
  cases h : (broadcast a b >>= fun ab => broadcast ab c) with
  | ok d => exact ((key d).mp h).symm
  | error e =>
    cases h' : (broadcast b c >>= fun bc => broadcast a bc) with
    | ok d => rw [(key d).mpr h'] at h; cases h
    | error e' =>
      rw [bind_assertion (fun _ => broadcast_error) (fun _ _ => broadcast_error) h,
        bind_assertion (fun _ => broadcast_error) (fun _ _ => broadcast_error) h']

theorem broadcast_nil (a : List Int) : broadcast [] a = .ok a := by
  rw [broadcast_iff]
  exact ⟨by simp, fun k => Or.inr (Or.inl ⟨trail_ge (Nat.zero_le _), rfl⟩)⟩

theorem broadcast_self (a : List Int) : broadcast a a = .ok a := by
  rw [broadcast_iff]
  exact ⟨by simp, fun k => Or.inl ⟨rfl, rfl⟩⟩

/-- The broadcast shape is the least shape (all sizes non-negative) to which both operands expand. -/
theorem isBroadcast_expands {a b c : List Int} (h : IsBroadcast a b c) :
    ExpandsTo a c ∧ ExpandsTo b c := by
  refine ⟨⟨by have := h.1; omega, fun k => ?_⟩, ⟨by have := h.1; omega, fun k => ?_⟩⟩ <;>
  · have := h.2 k
    unfold Common at this
    omega

theorem isBroadcast_least {a b c d : List Int} (h : IsBroadcast a b c) (ha : ExpandsTo a d)
    (hb : ExpandsTo b d) : ExpandsTo c d := by
  refine ⟨by have := h.1; have := ha.1; have := hb.1; omega, fun k => ?_⟩
  have := h.2 k
  have := ha.2 k
  have := hb.2 k
  unfold Common at *
  omega

end Verif.Shape
