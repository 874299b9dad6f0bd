import Verif.Lemmas.TmLoops
import Verif.Spec.TmAten
import Mathlib.Data.List.Forall2

namespace Verif.Tm

variable {E : Type}

/-! ## Where updates go -/

theorem base_length (rank : Nat) (ivs : List Nat) (h : ivs.length ≤ rank + 1) : (scatterBase rank ivs).length = rank := by
  simp [scatterBase]; omega

theorem base_get (rank : Nat) (ivs : List Nat) (h0 : ivs ≠ []) (h : ivs.length ≤ rank + 1) (j : Nat) (hj : j < rank) :
    (scatterBase rank ivs)[j]? = some (if rank + 1 ≤ j + ivs.length then some ((ivs[j + ivs.length - rank]?.getD 0 : Nat) : Int)
      else none) := by
  have hl : 1 ≤ ivs.length := List.length_pos_iff.2 h0
  unfold scatterBase
  dsimp only
  rw [List.length_drop]
  by_cases hc : rank + 1 ≤ j + ivs.length
  · rw [if_pos hc, List.getElem?_append_right (by simp; omega), List.length_replicate, List.getElem?_map, List.getElem?_drop]
    have : 1 + (j - (rank - (ivs.length - 1))) = j + ivs.length - rank := by omega
    rw [this, List.getElem?_eq_getElem (by omega)]
    rfl
  · rw [if_neg hc, List.getElem?_append_left (by simp; omega), List.getElem?_replicate, if_pos (by omega)]

theorem starts_get (rank : Nat) (dimMap : List Nat) (indices : Nat → Nat → Int) (ivs : List Nat) (h0 : ivs ≠ [])
    (h : ivs.length ≤ rank + 1) : (scatterStarts rank dimMap indices ivs).length = rank ∧ ∀ j, j < rank →
      (scatterStarts rank dimMap indices ivs)[j]? = some (if columns dimMap j = [] ∧ j + ivs.length < rank + 1 then none
        else some (startAt rank dimMap (indices (ivs.headD 0)) ivs j)) := by
  have gen : ∀ t, t ≤ dimMap.length →
      ((List.range t).foldl (fun st i => scatterAdd st (dimMap[i]?.getD 0) (indices (ivs.headD 0) i)) (scatterBase rank ivs)).length
        = rank ∧ ∀ j, j < rank →
      ((List.range t).foldl (fun st i => scatterAdd st (dimMap[i]?.getD 0) (indices (ivs.headD 0) i)) (scatterBase rank ivs))[j]?
        = some (if ((List.range t).filter fun i => decide (dimMap[i]? = some j)) = [] ∧ j + ivs.length < rank + 1 then none
          else some ((((List.range t).filter fun i => decide (dimMap[i]? = some j)).map (indices (ivs.headD 0))).sum +
            (if rank + 1 ≤ j + ivs.length then (ivs[j + ivs.length - rank]?.getD 0 : Nat) else 0 : Int))) := by
    intro t
    induction t with
    | zero =>
      intro _
      refine ⟨base_length rank ivs h, fun j hj => ?_⟩
      rw [List.range_zero, List.foldl_nil, base_get rank ivs h0 h j hj]
      by_cases hc : rank + 1 ≤ j + ivs.length
      · rw [if_pos hc, if_neg (by rintro ⟨_, h⟩; omega), if_pos hc]; simp
      · rw [if_neg hc, if_pos ⟨rfl, by omega⟩]
    | succ t ih =>
      intro ht
      obtain ⟨il, ig⟩ := ih (by omega)
      rw [List.range_succ, List.foldl_append, List.foldl_cons, List.foldl_nil]
      generalize (List.range t).foldl (fun st i => scatterAdd st (dimMap[i]?.getD 0) (indices (ivs.headD 0) i))
        (scatterBase rank ivs) = st at *
      refine ⟨by rw [scatterAdd, List.length_set, il], fun j hj => ?_⟩
      have hd : dimMap[t]? = some (dimMap[t]?.getD 0) := by
        rw [List.getElem?_eq_getElem (by omega : t < dimMap.length)]; rfl
      generalize dimMap[t]?.getD 0 = dd at *
      rw [scatterAdd, List.getElem?_set, List.filter_append]
      by_cases e : dd = j
      · subst e
        have hf : [t].filter (fun i => decide (dimMap[i]? = some dd)) = [t] := by simp [hd]
        rw [if_pos rfl, if_pos (by omega), ig dd hj, hf]
        rw [if_neg (show ¬ (((List.range t).filter fun i => decide (dimMap[i]? = some dd)) ++ [t] = [] ∧ _) by simp)]
        rw [List.map_append, List.sum_append]
        by_cases hc : ((List.range t).filter fun i => decide (dimMap[i]? = some dd)) = [] ∧ dd + ivs.length < rank + 1
        · rw [if_pos hc, hc.1, if_neg (show ¬ rank + 1 ≤ dd + ivs.length by omega)]
          simp
        · rw [if_neg hc]
          simp only [List.map_cons, List.map_nil, List.sum_cons, List.sum_nil]
          congr 2
          omega
      · rw [if_neg e]
        have hf : [t].filter (fun i => decide (dimMap[i]? = some j)) = [] := by simp [hd, e]
        rw [hf, List.append_nil]
        exact ig j hj
  exact gen dimMap.length (Nat.le_refl _)

theorem columns_nil {dimMap : List Nat} {j : Nat} : columns dimMap j = [] ↔ j ∉ dimMap := by
  rw [columns, List.filter_eq_nil_iff]
  constructor
  · intro h hm
    obtain ⟨i, hi⟩ := List.getElem?_of_mem hm
    exact h i (List.mem_range.2 (List.getElem?_eq_some_iff.1 hi).1) (decide_eq_true hi)
  · intro h i _ hd
    exact h (List.mem_of_getElem? (of_decide_eq_true hd))

theorem allThere_some {l : List (Option Int)} {r : List Int} : allThere l = some r ↔ l = r.map some := by
  induction l generalizing r with
  | nil => cases r <;> simp [allThere]
  | cons a l ih =>
    cases a with
    | none => cases r <;> simp [allThere]
    | some a =>
      rw [allThere]
      cases h : allThere l with
      | none =>
        constructor
        · intro h; cases h
        · intro e
          cases r with
          | nil => cases e
          | cons b r =>
            have := ih.2 (List.cons.inj e).2
            rw [h] at this; cases this
      | some q =>
        have hq := ih.1 h
        constructor
        · intro e
          injection e with e
          subst e
          simp [hq]
        · intro e
          cases r with
          | nil => cases e
          | cons b r =>
            obtain ⟨e1, e2⟩ := List.cons.inj e
            have := ih.2 e2
            rw [h] at this
            injection this with this
            injection e1 with e1
            simp [e1, this]

theorem inside_some : ∀ {sizes : List Nat} {is : List Int} {p : List Nat},
    inside sizes is = some p ↔ is = p.map (fun k : Nat => (k : Int)) ∧ InBox sizes p
  | [], [], p => by
    unfold InBox
    cases p with
    | nil => simp [inside]
    | cons a p => simp [inside]
  | [], i :: is, p => by
    unfold InBox
    cases p with
    | nil => simp [inside]
    | cons a p => simp [inside]
  | n :: ns, [], p => by
    unfold InBox
    cases p with
    | nil => simp [inside]
    | cons a p => simp [inside]
  | n :: ns, i :: is, p => by
    rw [inside]
    constructor
    · intro h
      split at h
      · rename_i hi
        cases hr : inside ns is with
        | none => rw [hr] at h; cases h
        | some r =>
          rw [hr] at h
          injection h with h
          subst h
          obtain ⟨h1, h2⟩ := inside_some.1 hr
          refine ⟨?_, .cons (by omega) h2⟩
          rw [List.map_cons, ← h1, Int.toNat_of_nonneg hi.1]
      · cases h
    · rintro ⟨h1, h2⟩
      cases h2 with
      | @cons a _ p _ h3 h4 =>
        rw [List.map_cons] at h1
        obtain ⟨h5, h6⟩ := List.cons.inj h1
        subst h5
        rw [if_pos (by omega), inside_some.2 ⟨h6, h4⟩, Int.toNat_natCast]

theorem target_iff (sizes dimMap : List Nat) (indices : Nat → Nat → Int) (ivs : List Nat) (h0 : ivs ≠ [])
    (h : ivs.length ≤ sizes.length + 1) (hc : Covered sizes.length ivs.length dimMap) (p : List Nat) :
    scatterTarget sizes dimMap indices ivs = some p ↔ Target sizes dimMap indices ivs p := by
  obtain ⟨hl, hg⟩ := starts_get sizes.length dimMap indices ivs h0 h
  have hg' : ∀ j, j < sizes.length → (scatterStarts sizes.length dimMap indices ivs)[j]?
      = some (some (startAt sizes.length dimMap (indices (ivs.headD 0)) ivs j)) := by
    intro j hj
    rw [hg j hj, if_neg]
    rintro ⟨h1, h2⟩
    exact columns_nil.1 h1 (hc j hj h2)
  have hall : scatterStarts sizes.length dimMap indices ivs
      = ((List.range sizes.length).map (startAt sizes.length dimMap (indices (ivs.headD 0)) ivs)).map some := by
    apply List.ext_getElem?
    intro j
    by_cases hj : j < sizes.length
    · rw [hg' j hj, List.getElem?_map, List.getElem?_map, List.getElem?_range hj]; rfl
    · rw [List.getElem?_eq_none (by omega), List.getElem?_eq_none (by simp; omega)]
  unfold scatterTarget
  rw [allThere_some.2 hall]
  dsimp only
  rw [inside_some]
  unfold Target
  constructor
  · rintro ⟨h1, h2⟩
    refine ⟨h2, fun j hj => ?_⟩
    have := congrArg (·[j]?) h1
    simp only [List.getElem?_map, List.getElem?_range hj, Option.map_some] at this
    have hp : j < p.length := by rw [h2.length]; exact hj
    rw [List.getElem?_eq_getElem hp] at this ⊢
    exact (Option.some.inj this).symm
  · rintro ⟨h1, h2⟩
    refine ⟨?_, h1⟩
    apply List.ext_getElem?
    intro j
    by_cases hj : j < sizes.length
    · have hp : j < p.length := by rw [h1.length]; exact hj
      have := h2 j hj
      rw [List.getElem?_eq_getElem hp] at this
      rw [List.getElem?_map, List.getElem?_map, List.getElem?_range hj, List.getElem?_eq_getElem hp]
      exact congrArg some this.symm
    · rw [List.getElem?_eq_none (by simp; omega), List.getElem?_eq_none (by simp [h1.length]; omega)]

/-- Without an index for a dimension the updates do not have, there is no place. -/
theorem not_covered (sizes dimMap : List Nat) (indices : Nat → Nat → Int) (ivs : List Nat) (h0 : ivs ≠ [])
    (h : ivs.length ≤ sizes.length + 1) (hc : ¬ Covered sizes.length ivs.length dimMap) :
    scatterTarget sizes dimMap indices ivs = none := by
  unfold Covered at hc
  obtain ⟨j, hj⟩ := Classical.not_forall.1 hc
  obtain ⟨h1, hj⟩ := Classical.not_imp.1 hj
  obtain ⟨h2, h3⟩ := Classical.not_imp.1 hj
  obtain ⟨hl, hg⟩ := starts_get sizes.length dimMap indices ivs h0 h
  have := hg j h1
  rw [if_pos ⟨columns_nil.2 h3, h2⟩] at this
  have hn : allThere (scatterStarts sizes.length dimMap indices ivs) = none := by
    cases e : allThere (scatterStarts sizes.length dimMap indices ivs) with
    | none => rfl
    | some r =>
      rw [allThere_some.1 e, List.getElem?_map] at this
      cases hr : r[j]? <;> rw [hr] at this <;> simp at this
  unfold scatterTarget
  rw [hn]

/-! ## The loop -/

theorem scatter_none (f : E → E → E) (sizes dimMap : List Nat) (indices : Nat → Nat → Int) (updates : Buf E) :
    ∀ L : List (List Nat), L.foldl (fun s j => scatterBody f sizes dimMap indices updates j s) none = none
  | [] => rfl
  | _ :: L => scatter_none f sizes dimMap indices updates L

theorem scatter_all (f : E → E → E) (sizes dimMap : List Nat) (indices : Nat → Nat → Int) (updates : Buf E) :
    ∀ (L : List (List Nat)) (b : Buf E), (∀ ivs ∈ L, ∃ p, scatterTarget sizes dimMap indices ivs = some p) →
      ∃ b', L.foldl (fun s j => scatterBody f sizes dimMap indices updates j s) (some b) = some b' ∧
        ∀ p, b' p = (L.filter fun ivs => decide (scatterTarget sizes dimMap indices ivs = some p)).foldl
          (fun v ivs => f (updates ivs) v) (b p)
  | [], b, _ => ⟨b, rfl, fun _ => rfl⟩
  | ivs :: L, b, h => by
    obtain ⟨q, hq⟩ := h ivs (by simp)
    obtain ⟨b', h1, h2⟩ := scatter_all f sizes dimMap indices updates L (b.store q (f (updates ivs) (b q)))
      (fun j hj => h j (List.mem_cons_of_mem _ hj))
    refine ⟨b', ?_, fun p => ?_⟩
    · rw [List.foldl_cons, scatterBody, hq]
      exact h1
    · rw [h2 p, List.filter_cons, hq]
      by_cases e : p = q
      · subst e
        rw [if_pos (by simp), List.foldl_cons, Buf.store, if_pos rfl]
      · rw [if_neg (by simpa using Ne.symm e), Buf.store, if_neg e]

theorem scatter_bad (f : E → E → E) (sizes dimMap : List Nat) (indices : Nat → Nat → Int) (updates : Buf E) :
    ∀ (L : List (List Nat)) (b : Buf E), (∃ ivs ∈ L, scatterTarget sizes dimMap indices ivs = none) →
      L.foldl (fun s j => scatterBody f sizes dimMap indices updates j s) (some b) = none
  | [], b, h => by obtain ⟨_, h, _⟩ := h; cases h
  | ivs :: L, b, h => by
    rw [List.foldl_cons, scatterBody]
    cases hq : scatterTarget sizes dimMap indices ivs with
    | none => exact scatter_none f sizes dimMap indices updates L
    | some q =>
      obtain ⟨j, hj, hn⟩ := h
      rcases List.mem_cons.1 hj with rfl | hj
      · rw [hq] at hn; cases hn
      · exact scatter_bad f sizes dimMap indices updates L _ ⟨j, hj, hn⟩

/-! ## Flattening -/

theorem unflatten_add : ∀ (ns : List Nat) (i r : Nat), r < ns.prod →
    unflatten ns (i * ns.prod + r) = (i, (unflatten ns r).2) ∧ (unflatten ns r).1 = 0
  | [], i, r, h => by
    have : r = 0 := by simpa using h
    subst this
    simp [unflatten]
  | s :: ss, i, r, h => by
    rw [List.prod_cons] at h ⊢
    have hp : 0 < ss.prod := Nat.pos_of_ne_zero (by rintro e; rw [e] at h; simp at h)
    have hs : 0 < s := Nat.pos_of_ne_zero (by rintro e; rw [e] at h; simp at h)
    have ha : r / ss.prod < s := (Nat.div_lt_iff_lt_mul hp).2 h
    have hb : r % ss.prod < ss.prod := Nat.mod_lt _ hp
    have hr : r = r / ss.prod * ss.prod + r % ss.prod := by rw [Nat.mul_comm]; exact (Nat.div_add_mod r _).symm
    generalize r / ss.prod = a at *
    generalize r % ss.prod = b at *
    have e1 : i * (s * ss.prod) + r = (i * s + a) * ss.prod + b := by rw [hr]; ring
    obtain ⟨h1, h2⟩ := unflatten_add ss (i * s + a) b hb
    obtain ⟨h3, _⟩ := unflatten_add ss a b hb
    rw [unflatten, e1, h1, unflatten, hr, h3]
    have e2 : (i * s + a) / s = i := by
      rw [Nat.mul_comm, Nat.mul_add_div hs, Nat.div_eq_of_lt ha, Nat.add_zero]
    have e3 : (i * s + a) % s = a := by
      rw [Nat.mul_comm, Nat.mul_add_mod, Nat.mod_eq_of_lt ha]
    dsimp only
    rw [e2, e3, Nat.div_eq_of_lt ha, Nat.mod_eq_of_lt ha]
    exact ⟨rfl, rfl⟩

theorem range_mul' (p : Nat) : ∀ s : Nat, List.range (s * p) = (List.range s).flatMap fun i => (List.range p).map (i * p + ·)
  | 0 => by simp
  | s + 1 => by
    rw [Nat.succ_mul, List.range_add, range_mul' p s, List.range_succ, List.flatMap_append]
    simp

theorem unflatten_box : ∀ ns : List Nat, (List.range ns.prod).map (fun e => (unflatten ns e).2) = box ns
  | [] => rfl
  | s :: ss => by
    rw [List.prod_cons, range_mul', box, ← unflatten_box ss, List.map_flatMap]
    refine List.flatMap_congr fun i hi => ?_
    rw [List.map_map, List.map_map]
    refine List.map_congr_left fun r hr => ?_
    have hr := List.mem_range.1 hr
    have hi := List.mem_range.1 hi
    show (unflatten (s :: ss) (i * ss.prod + r)).2 = i :: (unflatten ss r).2
    rw [unflatten, (unflatten_add ss i r hr).1]
    dsimp only
    rw [Nat.mod_eq_of_lt hi]

theorem box_single (n : Nat) : box [n] = (List.range n).map fun e => [e] := by
  rw [box]
  show ((List.range n).flatMap fun i => [[i]]) = _
  exact List.map_eq_flatMap.symm

theorem columns_range {r j : Nat} (h : j < r) : columns (List.range r) j = [j] := by
  unfold columns
  rw [List.length_range]
  have : (fun i => decide ((List.range r)[i]? = some j)) = fun i => decide (i = j) := by
    funext i
    by_cases hi : i < r
    · rw [List.getElem?_range hi]; simp
    · rw [List.getElem?_eq_none (by simp; omega)]
      have : i ≠ j := by omega
      simp [this]
  rw [this]
  induction r with
  | zero => omega
  | succ r ih =>
    rw [List.range_succ, List.filter_append]
    by_cases e : j = r
    · subst e
      have : (List.range j).filter (fun i => decide (i = j)) = [] := by
        rw [List.filter_eq_nil_iff]
        intro i hi
        have := List.mem_range.1 hi
        simp; omega
      rw [this]; simp
    · have hf : (fun i => decide ((List.range r)[i]? = some j)) = fun i => decide (i = j) := by
        funext i
        by_cases hi : i < r
        · rw [List.getElem?_range hi]; simp
        · rw [List.getElem?_eq_none (by simp; omega)]
          have : i ≠ j := by omega
          simp [this]
      rw [ih (by omega) hf]
      have : r ≠ j := Ne.symm e
      simp [this]

/-! ## `aten.scatter` -/

theorem inBox_of_get {sizes p : List Nat} (hl : p.length = sizes.length) (h : ∀ j, j < sizes.length → p[j]?.getD 0 < sizes[j]?.getD 0) :
    InBox sizes p := by
  unfold InBox
  rw [List.forall₂_iff_get]
  refine ⟨hl, fun i h1 h2 => ?_⟩
  have := h i h2
  rw [List.getElem?_eq_getElem h1, List.getElem?_eq_getElem h2] at this
  exact this

theorem InBox.get' {sizes p : List Nat} (h : InBox sizes p) (j : Nat) (hj : j < sizes.length) : p[j]?.getD 0 < sizes[j]?.getD 0 := by
  have := h.get (List.getElem?_eq_getElem hj)
  rwa [List.getElem?_eq_getElem hj]

theorem target_aten (sizes : List Nat) (isizes : List Nat) (d e : Nat) (index : List Nat → Int)
    (hlen : isizes.length = sizes.length) (p : List Nat) (hpl : (unflatten isizes e).2.length = isizes.length) :
    Target sizes (List.range sizes.length) (flatIndices isizes d index) [e] p ↔ ScatterTo sizes d index (unflatten isizes e).2 p := by
  unfold Target ScatterTo
  refine and_congr_right fun hb => ?_
  have hs : ∀ j, j < sizes.length → startAt sizes.length (List.range sizes.length) (flatIndices isizes d index e) [e] j
      = (((unflatten isizes e).2.map fun k : Nat => (k : Int)).set d (index (unflatten isizes e).2))[j]?.getD 0 := by
    intro j hj
    unfold startAt
    rw [columns_range hj, if_neg (by simp; omega)]
    simp [flatIndices]
  constructor
  · intro h
    apply List.ext_getElem?
    intro j
    by_cases hj : j < sizes.length
    · have := h j hj
      rw [show ([e] : List Nat).headD 0 = e from rfl, hs j hj] at this
      have hp : j < p.length := by rw [hb.length]; exact hj
      have hq : j < (((unflatten isizes e).2.map fun k : Nat => (k : Int)).set d (index (unflatten isizes e).2)).length := by
        rw [List.length_set, List.length_map, hpl]; omega
      rw [List.getElem?_eq_getElem hp, List.getElem?_eq_getElem hq] at this
      rw [List.getElem?_map, List.getElem?_eq_getElem hp, List.getElem?_eq_getElem hq]
      exact congrArg some this
    · rw [List.getElem?_eq_none (by rw [List.length_map, hb.length]; omega),
        List.getElem?_eq_none (by rw [List.length_set, List.length_map, hpl]; omega)]
  · intro h j hj
    rw [show ([e] : List Nat).headD 0 = e from rfl, hs j hj, ← h]
    have hp : j < p.length := by rw [hb.length]; exact hj
    rw [List.getElem?_map, List.getElem?_eq_getElem hp]
    rfl

theorem scatterTo_exists {sizes isizes : List Nat} {d : Nat} {index : List Nat → Int} (hok : ScatterOk sizes isizes d index)
    {place : List Nat} (hp : InBox isizes place) : ScatterTo sizes d index place (place.set d (index place).toNat) := by
  have hr := hok.range place hp
  refine ⟨?_, ?_⟩
  · apply inBox_of_get
    · rw [List.length_set, hp.length, hok.rank]
    · intro j hj
      rw [List.getElem?_set]
      by_cases e : d = j
      · subst e
        rw [if_pos rfl, if_pos (by rw [hp.length, hok.rank]; exact hj), Option.getD_some]
        omega
      · rw [if_neg e]
        have := hp.get' j (by rw [hok.rank]; exact hj)
        have := hok.le j hj (Ne.symm e)
        omega
  · rw [List.map_set, Int.toNat_of_nonneg hr.1]

theorem atenScatter_spec (f : E → E → E) (sizes isizes : List Nat) (d : Nat) (index : List Nat → Int) (src self : Buf E)
    (hok : ScatterOk sizes isizes d index) :
    ∃ out, atenScatter f sizes isizes d index src self = some out ∧
      ∀ p, out p = ((box isizes).filter fun place => decide (ScatterTo sizes d index place p)).foldl
        (fun v place => f (src place) v) (self p) := by
  have hd := hok.dim
  have hmem : ∀ e, e < isizes.prod → InBox isizes (unflatten isizes e).2 := by
    intro e he
    apply mem_box.1
    rw [← unflatten_box]
    exact List.mem_map.2 ⟨e, List.mem_range.2 he, rfl⟩
  have hcov : Covered sizes.length 1 (List.range sizes.length) := fun j hj _ => List.mem_range.2 hj
  have htar : ∀ e, e < isizes.prod → ∀ p, scatterTarget sizes (List.range sizes.length) (flatIndices isizes d index) [e] = some p ↔
      ScatterTo sizes d index (unflatten isizes e).2 p := by
    intro e he p
    rw [target_iff sizes _ _ [e] (by simp) (by simp) hcov p]
    exact target_aten sizes isizes d e index hok.rank p (hmem e he).length
  unfold atenScatter
  rw [if_pos hok.rank.symm, if_pos (by omega), scatter, lower_box, box_single, Int.toNat_natCast]
  obtain ⟨out, h1, h2⟩ := scatter_all f sizes (List.range sizes.length) (flatIndices isizes d index)
    (fun ivs => src (unflatten isizes (ivs.headD 0)).2) ((List.range isizes.prod).map fun e => [e]) self (by
      intro ivs hivs
      obtain ⟨e, he, rfl⟩ := List.mem_map.1 hivs
      have he := List.mem_range.1 he
      exact ⟨_, (htar e he _).2 (scatterTo_exists hok (hmem e he))⟩)
  refine ⟨out, h1, fun p => ?_⟩
  rw [h2 p, ← unflatten_box, List.filter_map, List.filter_map, List.foldl_map, List.foldl_map]
  have : (List.range isizes.prod).filter ((fun ivs => decide (scatterTarget sizes (List.range sizes.length)
        (flatIndices isizes d index) ivs = some p)) ∘ fun e => [e])
      = (List.range isizes.prod).filter ((fun place => decide (ScatterTo sizes d index place p)) ∘ fun e => (unflatten isizes e).2) := by
    apply List.filter_congr
    intro e he
    exact decide_eq_decide.2 (htar e (List.mem_range.1 he) p)
  rw [this]
  rfl

end Verif.Tm
