import Verif.Spec.DecMove
import Verif.Lemmas.Linalg

namespace Verif.Dec

open Lin

/-! ## Lists by their elements -/

theorem ext_getD {l l' : List Int} (h : l.length = l'.length) (hk : ∀ k, k < l.length → l.getD k 0 = l'.getD k 0) : l = l' := by
  apply List.ext_getElem h
  intro i h1 h2
  have := hk i h1
  rwa [List.getD_eq_getElem?_getD, List.getD_eq_getElem?_getD, List.getElem?_eq_getElem h1, List.getElem?_eq_getElem h2] at this

theorem getD_set (l : List Int) (a : Nat) (v : Int) (k : Nat) :
    (l.set a v).getD k 0 = if a = k ∧ k < l.length then v else l.getD k 0 := by
  rw [List.getD_eq_getElem?_getD, List.getElem?_set, List.getD_eq_getElem?_getD]
  by_cases h : a = k
  · subst h
    by_cases h2 : a < l.length
    · rw [if_pos rfl, if_pos h2, if_pos ⟨rfl, h2⟩]; rfl
    · rw [if_pos rfl, if_neg h2, if_neg (fun h => h2 h.2), List.getElem?_eq_none (by omega)]
  · rw [if_neg h, if_neg (fun h' => h h'.1)]

theorem getD_erase (l : List Int) (d k : Nat) : (l.eraseIdx d).getD k 0 = if k < d then l.getD k 0 else l.getD (k + 1) 0 := by
  rw [List.getD_eq_getElem?_getD, List.getElem?_eraseIdx]
  by_cases h : k < d
  · rw [if_pos h, if_pos h, List.getD_eq_getElem?_getD]
  · rw [if_neg h, if_neg h, List.getD_eq_getElem?_getD]

theorem getD_insert (l : List Int) (d : Nat) (v : Int) (k : Nat) (h : d ≤ l.length) :
    (l.insertIdx d v).getD k 0 = if k < d then l.getD k 0 else if k = d then v else l.getD (k - 1) 0 := by
  rw [List.getD_eq_getElem?_getD, List.getElem?_insertIdx]
  by_cases h1 : k < d
  · rw [if_pos h1, if_pos h1, List.getD_eq_getElem?_getD]
  · rw [if_neg h1, if_neg h1]
    by_cases h2 : k = d
    · rw [if_pos h2, if_pos h2, if_pos (by omega)]; rfl
    · rw [if_neg h2, if_neg h2, List.getD_eq_getElem?_getD]

theorem getD_zipMap (f : Int × Nat → Int) (l : List Int) (k : Nat) :
    (l.zipIdx.map f).getD k 0 = if k < l.length then f (l.getD k 0, k) else 0 := by
  rw [List.getD_eq_getElem?_getD, List.getElem?_map, List.getElem?_zipIdx]
  by_cases h : k < l.length
  · rw [if_pos h, List.getElem?_eq_getElem h, List.getD_eq_getElem?_getD, List.getElem?_eq_getElem h]
    simp
  · rw [if_neg h, List.getElem?_eq_none (by omega)]; rfl

theorem getD_beyond (l : List Int) (k : Nat) (h : l.length ≤ k) : l.getD k 0 = 0 := by
  rw [List.getD_eq_getElem?_getD, List.getElem?_eq_none h]; rfl

theorem length_insert (l : List Int) (d : Nat) (v : Int) (h : d ≤ l.length) : (l.insertIdx d v).length = l.length + 1 := by
  rw [List.length_insertIdx, if_pos h]

theorem length_erase (l : List Int) (d : Nat) (h : d < l.length) : (l.eraseIdx d).length = l.length - 1 :=
  List.length_eraseIdx_of_lt h

theorem inRange_iff' {ns is : List Int} : inRange ns is = true ↔
    is.length = ns.length ∧ ∀ d, d < ns.length → 0 ≤ is.getD d 0 ∧ is.getD d 0 < ns.getD d 0 := by
  constructor
  · intro h
    exact ⟨inRange_length h, fun d hd => inRange_getD h hd⟩
  · rintro ⟨h1, h2⟩
    rw [inRange_iff]
    refine ⟨h1, fun d n i hn hi => ?_⟩
    have hd : d < ns.length := (List.getElem?_eq_some_iff.1 hn).1
    have h := h2 d hd
    rwa [List.getD_eq_getElem?_getD, List.getD_eq_getElem?_getD, hn, hi] at h

theorem erase_insert (l : List Int) (d : Nat) (v : Int) : (l.insertIdx d v).eraseIdx d = l := List.eraseIdx_insertIdx_self _

theorem insert_erase (l : List Int) (d : Nat) (h : d < l.length) : (l.eraseIdx d).insertIdx d (l.getD d 0) = l := by
  apply ext_getD
  · rw [length_insert _ _ _ (by rw [length_erase _ _ h]; omega), length_erase _ _ h]; omega
  · intro k hk
    rw [getD_insert _ _ _ _ (by rw [length_erase _ _ h]; omega), getD_erase, getD_erase]
    by_cases h1 : k < d
    · rw [if_pos h1, if_pos h1]
    · rw [if_neg h1]
      by_cases h2 : k = d
      · rw [if_pos h2, h2]
      · rw [if_neg h2, if_neg (by omega), show k - 1 + 1 = k by omega]

theorem inRange_insert {ns is : List Int} {d : Nat} {n i : Int} (hd : d ≤ ns.length) (h : inRange ns is = true) (hi : 0 ≤ i ∧ i < n) :
    inRange (ns.insertIdx d n) (is.insertIdx d i) = true := by
  rw [inRange_iff'] at h ⊢
  rw [length_insert _ _ _ hd, length_insert _ _ _ (by omega)]
  refine ⟨by omega, fun k hk => ?_⟩
  rw [getD_insert _ _ _ _ hd, getD_insert _ _ _ _ (by omega)]
  by_cases h1 : k < d
  · rw [if_pos h1, if_pos h1]; exact h.2 k (by omega)
  · rw [if_neg h1, if_neg h1]
    by_cases h2 : k = d
    · rw [if_pos h2, if_pos h2]; exact hi
    · rw [if_neg h2, if_neg h2]; exact h.2 _ (by omega)

theorem inRange_erase {ns is : List Int} (d : Nat) (h : inRange ns is = true) : inRange (ns.eraseIdx d) (is.eraseIdx d) = true := by
  by_cases hd : d < ns.length
  · rw [inRange_iff'] at h ⊢
    rw [length_erase _ _ hd, length_erase _ _ (by omega)]
    refine ⟨by omega, fun k hk => ?_⟩
    rw [getD_erase, getD_erase]
    by_cases h1 : k < d
    · rw [if_pos h1, if_pos h1]; exact h.2 k (by omega)
    · rw [if_neg h1, if_neg h1]; exact h.2 _ (by omega)
  · rw [List.eraseIdx_of_length_le (by omega), List.eraseIdx_of_length_le (by rw [inRange_length h]; omega)]
    exact h

/-! ## Dimensions -/

theorem wrapDim_of {r : Nat} {dim : Int} {d : Nat} (h : Dim r dim d) : wrapDim r dim = some d := by
  unfold wrapDim
  rcases h with ⟨h1, h2 | h2⟩
  · rw [if_pos (by omega), h2]; simp
  · by_cases h3 : 0 ≤ dim ∧ dim < r
    · omega
    · rw [if_neg h3, if_pos (by omega), h2, show ((d : Int) - r + r) = d by omega]; simp

theorem wrapDim_some {r : Nat} {dim : Int} {d : Nat} (h : wrapDim r dim = some d) : Dim r dim d := by
  unfold wrapDim at h
  by_cases h1 : 0 ≤ dim ∧ dim < r
  · rw [if_pos h1] at h
    cases h
    exact ⟨by omega, .inl (by omega)⟩
  · rw [if_neg h1] at h
    by_cases h2 : -(r : Int) ≤ dim ∧ dim < 0
    · rw [if_pos h2] at h
      cases h
      exact ⟨by omega, .inr (by omega)⟩
    · rw [if_neg h2] at h; cases h

theorem wrapDims_of {r : Nat} : ∀ {dims : List Int} {ds : List Nat}, Names r dims ds → wrapDims r dims = some ds := by
  intro dims ds h
  induction h with
  | nil => rfl
  | cons h _ ih => simp only [wrapDims, wrapDim_of h, ih]

theorem clampBound_in {n i : Int} (h : 0 ≤ i ∧ i ≤ n) : clampBound n i = i := by
  unfold clampBound
  rw [if_neg (by omega)]
  omega

theorem clampBound_neg {n i : Int} (h : -n ≤ i ∧ i < 0) : clampBound n i = i + n := by
  unfold clampBound
  rw [if_pos (by omega)]
  omega

theorem slice_at {E : Type} {x : Tensor E} {dim : Int} {d : Nat} (h : Dim x.sizes.length dim d) (start stop : Option Int) :
    slice x dim start stop = some (sliceAt x d (clampBound (x.sizes.getD d 0) (start.getD 0))
      (match stop with | some e => clampBound (x.sizes.getD d 0) e | none => x.sizes.getD d 0)) := by
  unfold slice
  rw [wrapDim_of h]
  rfl

end Verif.Dec
