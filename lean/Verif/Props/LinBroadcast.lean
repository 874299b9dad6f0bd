import Verif.Lemmas.LinBroadcast

/-!
# C88: broadcasting in the linalg backend
-/

namespace Verif

open Lin

variable {E F : Type}

/-- The lowering of `aten.broadcast_to` broadcasts, for static and dynamic sizes; -1 keeps a size.  What is missing: sizes of -1 that are
not constants (`C88_violated_keep`). -/
theorem C88_broadcast_to_partial (strict : Bool) (x : Operand E) (ht : x.Typed) (hx : x.tensor.Ok) (size : List (Int × Bool)) (target : List Int)
    (outTy : List (Option Int)) (hr : Requests x.tensor.sizes (size.map (·.1)) target) (ho : TypeOf outTy target)
    (hconst : ∀ s ∈ size, s.2 = false → 0 ≤ s.1) (hs : strict = true → NoDynamicBroadcast x target fun _ => True) :
    ∃ t, lowerBroadcastTo strict x size outTy = some (some t) ∧ t.Ok ∧ IsBroadcastOf t x.tensor target := by
  obtain ⟨hlen, hb, hreq⟩ := hr
  have htl : x.type.length = x.tensor.sizes.length := ht.1
  have hle : x.type.length ≤ target.length := by rw [htl]; exact hb.1
  have hsl : size.length = target.length := by rw [← hlen, List.length_map]
  have hreq' : ∀ i, i < target.length → (0 ≤ (size.map (·.1)).getD i 0 ∧ target.getD i 0 = (size.map (·.1)).getD i 0) ∨
      ((size.map (·.1)).getD i 0 = -1 ∧ target.length - x.type.length ≤ i ∧ target.getD i 0 = x.tensor.sizes.getD (i - (target.length - x.type.length)) 0) := by
    intro i hi
    rcases hreq i _ (getElem?_of_lt (by omega)) with ⟨h1, h2⟩ | ⟨h1, h2, h3⟩
    · left
      refine ⟨h1, ?_⟩
      rw [List.getD_eq_getElem?_getD (l := target), h2]
      rfl
    · right
      rw [← htl] at h2 h3
      exact ⟨h1, h2, getD_of_eq h3⟩
  have hpos : ∀ n ∈ target, 0 ≤ n := by
    intro n hn
    obtain ⟨i, hi⟩ := List.getElem?_of_mem hn
    have hil : i < target.length := by
      by_cases h : i < target.length
      · exact h
      · rw [List.getElem?_eq_none (by omega)] at hi; cases hi
    have hn' : target.getD i 0 = n := by rw [List.getD_eq_getElem?_getD, hi]; rfl
    rcases hreq' i hil with ⟨h1, h2⟩ | ⟨-, h2, h3⟩
    · omega
    · rw [← hn', h3]
      exact hx.1 _ (List.mem_of_getElem? (getElem?_of_lt (by omega)))
  have huse : ∀ k, k < x.type.length → (((size.drop (size.length - x.type.length)).map fun s => if s.2 then decide (s.1 ≥ 0) else true).getD k false = true ↔
      0 ≤ (size.map (·.1)).getD (k + (target.length - x.type.length)) 0) := by
    intro k hk
    rw [List.getD_eq_getElem?_getD, List.getElem?_map, List.getElem?_drop, List.getD_eq_getElem?_getD, List.getElem?_map, hsl,
      Nat.add_comm k, List.getElem?_eq_getElem (by omega)]
    simp only [Option.map_some, Option.getD_some]
    have := hconst (size[target.length - x.type.length + k]'(by omega)) (List.getElem_mem _)
    cases hc : (size[target.length - x.type.length + k]'(by omega)).2 with
    | true => simp
    | false => simp only [Bool.false_eq_true, if_false, true_iff]; exact this hc
  have hold : ∀ k, ∃ b np, k < x.type.length →
      bcStep strict x (size.map (·.1)) outTy ((size.drop (size.length - x.type.length)).map fun s => if s.2 then decide (s.1 ≥ 0) else true)
        (k + (target.length - x.type.length)) = some ⟨target.getD (k + (target.length - x.type.length)) 0, some b, np, true⟩ ∧
      (b = true → x.type.getD k none = some 1) ∧
      (b = false → strict = true ∨ np = false → x.tensor.sizes.getD k 0 = target.getD (k + (target.length - x.type.length)) 0) := by
    intro k
    by_cases hk : k < x.type.length
    · have hq := hreq' (k + (target.length - x.type.length)) (by omega)
      rw [Nat.add_sub_cancel] at hq
      have hu := huse k hk
      obtain ⟨b, np, h1, h2, h3⟩ := oldDim_spec strict ((size.map (·.1)).getD (k + (target.length - x.type.length)) 0)
        (outTy.getD (k + (target.length - x.type.length)) none) (x.type.getD k none) (x.tensor.sizes.getD k 0)
        (((size.drop (size.length - x.type.length)).map fun s => if s.2 then decide (s.1 ≥ 0) else true).getD k false)
        (target.getD (k + (target.length - x.type.length)) 0)
        (fun v hv => typeOf_getD ht hv) (fun v hv => typeOf_getD ho hv)
        (by have := hb.dim (k := k) (by omega); rwa [← htl] at this)
        (fun _ h1 => by
          have := typeOf_getD ht h1
          rcases hq with ⟨q1, q2⟩ | ⟨q1, -, q3⟩
          · rw [if_neg (by omega), q2]
          · rw [if_pos (by omega), q3, this])
        (fun _ _ h => by
          rw [hu] at h
          rcases hq with ⟨q1, q2⟩ | ⟨q1, -, q3⟩
          · exact ⟨q2.symm, q1⟩
          · omega)
        (fun _ _ h => by
          rcases hq with ⟨q1, q2⟩ | ⟨q1, -, q3⟩
          · rw [hu.2 q1] at h; cases h
          · exact q3.symm)
        (fun hst hn => getD_of_eq (hs hst k trivial (typed_none hk hn)))
      refine ⟨b, np, fun _ => ⟨?_, h2, h3⟩⟩
      unfold bcStep
      simp only [hlen]
      rw [if_neg (by omega), Nat.add_sub_cancel]
      exact h1
    · exact ⟨false, false, fun h => absurd h hk⟩
  choose b np hold using hold
  obtain ⟨t, h1, h2⟩ := broadcast_core strict x ht (size.map (·.1)) target outTy
    ((size.drop (size.length - x.type.length)).map fun s => if s.2 then decide (s.1 ≥ 0) else true) hlen hb b np
    (fun i hi => by
      unfold bcStep
      simp only [hlen]
      rw [if_pos hi]
      have hq := hreq' i (by omega)
      unfold newDim
      cases hty : outTy.getD i none with
      | some v =>
        have := typeOf_getD ho hty
        dsimp only
        rw [if_neg (by omega), this]
      | none =>
        dsimp only
        rcases hq with ⟨q1, q2⟩ | ⟨q1, q2, -⟩
        · rw [q2, decide_eq_true q1, Bool.or_true]
        · omega)
    (fun k hk => (hold k hk).1) (fun k hk => (hold k hk).2.1) (fun k hk => (hold k hk).2.2)
  exact ⟨t, h1, bcIndex_ok hx hb h2 hpos, h2⟩

/-- The lowering of `aten.copy` broadcasts the source to the sizes of the destination.  What is missing: a dimension of the source that
is broadcast, of which is not known that it is of size one, where the destination is not known either (`C88_violated_copy`). -/
theorem C88_copy_partial (strict : Bool) (conv : E → F) (self : Operand F) (src : Operand E) (hself : self.Typed) (hok : self.tensor.Ok) (ht : src.Typed)
    (hx : src.tensor.Ok) (hb : BroadcastsTo src.tensor.sizes self.tensor.sizes)
    (hd : NoDynamicBroadcast src self.tensor.sizes fun i => strict = true ∨ self.type[i]? = some none) :
    ∃ t, lowerCopy strict conv self src = some (some t) ∧ t.Ok ∧
      IsBroadcastOf t ⟨src.tensor.sizes, fun j => (src.tensor.elem j).map conv⟩ self.tensor.sizes := by
  have htl : src.type.length = src.tensor.sizes.length := ht.1
  have hle : src.type.length ≤ self.tensor.sizes.length := by rw [htl]; exact hb.1
  have hty := hself.1
  have hpos : ∀ i, i < self.tensor.sizes.length → 0 ≤ self.tensor.sizes.getD i 0 := fun i hi => hok.1 _ (List.mem_of_getElem? (getElem?_of_lt hi))
  have hold : ∀ k, ∃ b np, k < src.type.length →
      bcStep strict src self.tensor.sizes self.type [] (k + (self.tensor.sizes.length - src.type.length)) =
        some ⟨self.tensor.sizes.getD (k + (self.tensor.sizes.length - src.type.length)) 0, some b, np, true⟩ ∧
      (b = true → src.type.getD k none = some 1) ∧
      (b = false → strict = true ∨ np = false → src.tensor.sizes.getD k 0 = self.tensor.sizes.getD (k + (self.tensor.sizes.length - src.type.length)) 0) := by
    intro k
    by_cases hk : k < src.type.length
    · have hp := hpos (k + (self.tensor.sizes.length - src.type.length)) (by omega)
      have hbk := hb.dim (k := k) (by omega)
      rw [← htl] at hbk
      obtain ⟨b, np, h1, h2, h3⟩ := oldDim_spec strict (self.tensor.sizes.getD (k + (self.tensor.sizes.length - src.type.length)) 0)
        (self.type.getD (k + (self.tensor.sizes.length - src.type.length)) none) (src.type.getD k none) (src.tensor.sizes.getD k 0) false
        (self.tensor.sizes.getD (k + (self.tensor.sizes.length - src.type.length)) 0)
        (fun v hv => typeOf_getD ht hv) (fun v hv => typeOf_getD hself hv) hbk
        (fun _ _ => if_neg (by omega)) (fun _ _ h => by cases h)
        (fun h0 h1 _ => by
          cases hn : src.type.getD k none with
          | none => exact getD_of_eq (hd k (Or.inr (typed_none (by omega) h0)) (typed_none hk hn))
          | some v =>
            have := typeOf_getD ht hn
            rcases hbk with h | h
            · exact absurd (by rw [hn, ← this, h]) h1
            · exact h)
        (fun hst hn => getD_of_eq (hd k (Or.inl hst) (typed_none hk hn)))
      refine ⟨b, np, fun _ => ⟨?_, h2, h3⟩⟩
      unfold bcStep
      dsimp only
      rw [if_neg (by omega), Nat.add_sub_cancel]
      exact h1
    · exact ⟨false, false, fun h => absurd h hk⟩
  choose b np hold using hold
  obtain ⟨t, h1, h2, h3⟩ := broadcast_core strict src ht self.tensor.sizes self.tensor.sizes self.type [] rfl hb b np
    (fun i hi => by
      have := hpos i (by omega)
      unfold bcStep
      dsimp only
      rw [if_pos hi]
      unfold newDim
      cases hv : self.type.getD i none with
      | some v =>
        have := typeOf_getD hself hv
        dsimp only
        rw [if_neg (by omega), this]
      | none =>
        dsimp only
        rw [decide_eq_true this, Bool.or_true])
    (fun k hk => (hold k hk).1) (fun k hk => (hold k hk).2.1) (fun k hk => (hold k hk).2.2)
  have hres : ∀ idx, inRange self.tensor.sizes idx = true → (t.get idx).map conv = (src.tensor.elem (bcIndex src.tensor.sizes idx)).map conv := by
    intro idx hi
    rw [get_of_range (by rw [h2]; exact hi), h3 idx hi]
  refine ⟨⟨self.tensor.sizes, fun idx => (t.get idx).map conv⟩, by unfold lowerCopy; rw [h1], ⟨hok.1, fun idx hi => ?_⟩, rfl, hres⟩
  show ∃ e, (t.get idx).map conv = some e
  rw [hres idx hi]
  obtain ⟨e, he⟩ := hx.2 _ (bcIndex_range hb hi)
  exact ⟨conv e, by rw [he]; rfl⟩

/-- Fewer dimensions than the input has, and sizes known not to be those of the input, are turned down. -/
theorem C88_rejects (strict : Bool) (x : Operand E) (size : List (Int × Bool)) (outTy : List (Option Int)) :
    (size.length < x.type.length → lowerBroadcastTo strict x size outTy = none) ∧
    (∀ (k : Nat) (n m : Int), k < x.type.length → x.type.getD k none = some n → outTy.getD (k + (size.length - x.type.length)) none = some m →
      n ≠ 1 → n ≠ m → lowerBroadcastTo strict x size outTy = none) := by
  refine ⟨fun h => if_pos (by rw [List.length_map]; exact h), fun k n m hk hn hm h1 h2 => ?_⟩
  unfold lowerBroadcastTo broadcastToGivenShape
  by_cases h : (size.map (·.1)).length < x.type.length
  · rw [if_pos h]
  · rw [if_neg h]
    dsimp only
    rw [mapM_none]
    rw [List.length_map] at h ⊢
    refine ⟨k + (size.length - x.type.length), List.mem_range.2 (by omega), ?_⟩
    unfold bcStep
    simp only [List.length_map]
    rw [if_neg (by omega), Nat.add_sub_cancel, hn, hm]
    unfold oldDim
    exact if_pos ⟨by simp, fun h => h2 (Option.some.inj h), fun h => h1 (Option.some.inj h)⟩

/-- Elementwise operations: an assertion of the program fails, or the operands are broadcast against each other. -/
theorem C88_elementwise (os : List (Operand E)) (hne : os ≠ []) (ht : ∀ o ∈ os, o.Typed) (hok : ∀ o ∈ os, o.tensor.Ok) (body : List E → F) :
    elementwise false os body = none ∨ ∃ t, elementwise false os body = some t ∧ t.Ok ∧ IsElementwiseOf body t (os.map (·.tensor)) := by
  cases hc : (common false os).2 with
  | false =>
    left
    rw [elementwise_eq, hc]
    rfl
  | true =>
    right
    apply elementwise_core false os hne ht hok body hc
    intro o ho v hv
    exact (fold_sound _ _ hc).2 v (List.mem_flatMap.2 ⟨o, ho, hv⟩) (by rw [List.length_replicate]; exact visit_lt ho hv)

/-- Operands that can be broadcast are, and no assertion fails, if only dimensions known to be of size one are broadcast.  What is missing:
dimensions of size one of which this is not known (`C88_violated_elementwise`). -/
theorem C88_elementwise_defined_partial (strict : Bool) (os : List (Operand E)) (hne : os ≠ []) (ht : ∀ o ∈ os, o.Typed) (hok : ∀ o ∈ os, o.tensor.Ok)
    (body : List E → F) (target : List Int) (hcom : IsCommonShape (os.map (·.tensor.sizes)) target)
    (hd : ∀ o ∈ os, NoDynamicBroadcast o target fun _ => True) :
    ∃ t, elementwise strict os body = some t ∧ t.Ok ∧ IsElementwiseOf body t (os.map (·.tensor)) ∧ t.sizes = target := by
  have hmem : ∀ o ∈ os, BroadcastsTo o.tensor.sizes target := fun o ho => hcom.1 _ (List.mem_map.2 ⟨o, ho, rfl⟩)
  have hrank : resultRank os = target.length := by
    obtain ⟨o, ho, h⟩ := rank_attained hne
    have h1 := (hmem o ho).1
    have h2 := (ht o ho).1
    cases target with
    | nil =>
      simp only [List.length_nil] at h1 ⊢
      omega
    | cons a l =>
      obtain ⟨s, hs, k, hk, -⟩ := hcom.2 0 a rfl
      obtain ⟨p, hp, rfl⟩ := List.mem_map.1 hs
      have := rank_le hp
      have := (ht p hp).1
      omega
  have hT : ∀ o ∈ os, ∀ v ∈ visits os o, v.2 = target.getD v.1 0 := by
    intro o ho v hv
    obtain ⟨k, hk, hno, rfl⟩ := mem_visits.1 hv
    have htl := (ht o ho).1
    dsimp only
    rw [hrank]
    cases hn : o.type.getD k none with
    | none => exact getD_of_eq (hd o ho k trivial (typed_none hk hn))
    | some n =>
      have hsz := typeOf_getD (ht o ho) hn
      have hdim := (hmem o ho).dim (k := k) (by omega)
      rw [← htl] at hdim
      rcases hdim with h1 | h1
      · -- known to be one, and so are all others
        have hn1 : o.type.getD k none = some 1 := by rw [hn, ← hsz, h1]
        have hall : nonStaticOne os (k + (resultRank os - o.type.length)) = false := by
          cases h : nonStaticOne os (k + (resultRank os - o.type.length)) with
          | false => rfl
          | true => exact absurd ⟨hn1, h⟩ hno
        have hr := rank_le ho
        obtain ⟨s, hs, j, hj, hjn⟩ := hcom.2 (k + (target.length - o.type.length)) _ (getElem?_of_lt (by omega))
        obtain ⟨p, hp, rfl⟩ := List.mem_map.1 hs
        have hpt := (ht p hp).1
        unfold nonStaticOne at hall
        rw [List.any_eq_false] at hall
        have hpn := hall p hp
        simp only [decide_eq_true_eq, not_and, not_not] at hpn
        have hjl : j < p.type.length := by
          rw [hpt]
          by_cases h : j < p.tensor.sizes.length
          · exact h
          · rw [List.getElem?_eq_none (by omega)] at hjn; cases hjn
        have hp1 := rank_le hp
        have := typeOf_getD (ht p hp) (hpn (by omega))
        have e : k + (resultRank os - o.type.length) - (resultRank os - p.type.length) = j := by omega
        rw [e] at this
        rw [h1, ← this, List.getD_eq_getElem?_getD (l := p.tensor.sizes), hjn]
        rfl
      · exact h1
  have hflat : ∀ v ∈ os.flatMap (visits os), v.2 = target.getD v.1 0 := by
    intro v hv
    obtain ⟨o, ho, h⟩ := List.mem_flatMap.1 hv
    exact hT o ho v h
  have hc : (common strict os).2 = true := by
    apply fold_complete strict (fun i => target.getD i 0) _ _ hflat _ rfl
    intro i m h
    rw [List.getD_eq_getElem?_getD] at h
    by_cases hi : i < resultRank os
    · rw [List.getElem?_replicate_of_lt hi] at h; cases h
    · rw [List.getElem?_eq_none (by simpa using hi)] at h; cases h
  obtain ⟨t, h1, h2, h3⟩ := elementwise_core strict os hne ht hok body hc fun o ho v hv => by
    obtain ⟨m, hm⟩ := fold_there strict (os.flatMap (visits os)) (List.replicate (resultRank os) none, true) v (List.mem_flatMap.2 ⟨o, ho, hv⟩)
      (by rw [List.length_replicate]; exact visit_lt ho hv)
    obtain ⟨p, hp, hm'⟩ := common_from strict os hm
    have := hT p hp _ hm'
    dsimp only at this
    rw [show (common strict os).1.getD v.1 none = some m from hm, this, ← hT o ho v hv]
  refine ⟨t, h1, h2, h3, common_unique h3.1 ?_⟩
  rw [List.map_map]
  exact hcom

namespace Test88

def iota (sizes : List Int) (v : Int) : Tensor (List Int) := ⟨sizes, fun idx => some (v :: idx)⟩

theorem iota_ok {sizes : List Int} {v : Int} (h : ∀ n ∈ sizes, 0 ≤ n) : (iota sizes v).Ok := ⟨h, fun idx _ => ⟨v :: idx, rfl⟩⟩

theorem typeOf_two {a b : Option Int} {m n : Int} (ha : ∀ v, a = some v → m = v) (hb : ∀ v, b = some v → n = v) : TypeOf [a, b] [m, n] := by
  refine ⟨rfl, fun d v h => ?_⟩
  match d with
  | 0 => rw [List.getElem?_cons_zero, Option.some.injEq] at h; rw [List.getElem?_cons_zero, ha v h]
  | 1 => rw [List.getElem?_cons_succ, List.getElem?_cons_zero, Option.some.injEq] at h; rw [List.getElem?_cons_succ, List.getElem?_cons_zero, hb v h]
  | d + 2 => simp at h

/-- One dimension known to be one, one not known. -/
def x : Operand (List Int) := ⟨iota [1, 3] 5, [some 1, none]⟩
theorem x_typed : x.Typed := typeOf_two (by rintro v ⟨⟩; rfl) (by rintro v ⟨⟩)
theorem x_broadcasts : BroadcastsTo [1, 3] [2, 4, 3] := by
  refine ⟨by decide, fun k n h => ?_⟩
  match k with
  | 0 => simp at h; exact Or.inl h.symm
  | 1 => simp at h; right; rw [← h]; rfl
  | k + 2 => simp at h
theorem x_requests : Requests [1, 3] [2, 4, -1] [2, 4, 3] := by
  refine ⟨rfl, x_broadcasts, fun i s h => ?_⟩
  match i with
  | 0 => simp at h; left; rw [← h]; decide
  | 1 => simp at h; left; rw [← h]; decide
  | 2 => simp at h; right; rw [← h]; decide
  | i + 3 => simp at h
example : ∃ t, lowerBroadcastTo false x [(2, true), (4, false), (-1, true)] [some 2, none, none] = some (some t) ∧ t.Ok ∧ IsBroadcastOf t (iota [1, 3] 5) [2, 4, 3] :=
  C88_broadcast_to_partial false x x_typed (iota_ok (by decide)) _ [2, 4, 3] [some 2, none, none] x_requests
    (by
      refine ⟨rfl, fun d n h => ?_⟩
      match d with
      | 0 => simp at h; rw [← h]; rfl
      | 1 => simp at h
      | 2 => simp at h
      | d + 3 => simp at h)
    (by decide) (by simp)
example : ((lowerBroadcastTo false x [(2, true), (4, false), (-1, true)] [some 2, none, none]).map fun o => o.map fun t => (t.sizes, t.elem [1, 3, 2])) =
    some (some ([2, 4, 3], some [5, 0, 2])) := by decide +kernel
example : collapseGroups [true, false, true, true, false, true] = ([[0, 1, 2, 3], [4, 5]], [1, 4]) := by decide +kernel
/-- Sizes not known at all, broadcast at run time. -/
example : ((lowerBroadcastTo false ⟨iota [1, 3] 5, [none, none]⟩ [(4, false), (3, false)] [none, none]).map fun o => o.map fun t => (t.sizes, t.elem [3, 2])) =
    some (some ([4, 3], some [5, 0, 2])) := by decide +kernel
example : ((lowerCopy false (fun l : List Int => l.sum) ⟨⟨[4, 3], fun _ => some 0⟩, [none, some 3]⟩ x).map fun o => o.map fun t => (t.sizes, t.elem [3, 2])) =
    some (some ([4, 3], some 7)) := by decide +kernel
example : ((elementwise false [x, ⟨iota [2, 1] 6, [none, some 1]⟩, ⟨iota [3] 7, [none]⟩] (fun l => l)).map fun t => (t.sizes, t.elem [1, 2])) =
    some ([2, 3], some [[5, 0, 2], [6, 1, 0], [7, 2]]) := by decide +kernel
example : IsCommonShape [[1, 3], [2, 1], [3]] [2, 3] := by
  refine ⟨fun s hs => ?_, fun i n hn => ?_⟩
  · simp only [List.mem_cons, List.not_mem_nil, or_false] at hs
    rcases hs with rfl | rfl | rfl
    · refine ⟨by decide, fun k n h => ?_⟩
      match k with
      | 0 => simp at h; exact Or.inl h.symm
      | 1 => simp at h; right; rw [← h]; rfl
      | k + 2 => simp at h
    · refine ⟨by decide, fun k n h => ?_⟩
      match k with
      | 0 => simp at h; right; rw [← h]; rfl
      | 1 => simp at h; exact Or.inl h.symm
      | k + 2 => simp at h
    · refine ⟨by decide, fun k n h => ?_⟩
      match k with
      | 0 => simp at h; right; rw [← h]; rfl
      | k + 1 => simp at h
  · match i with
    | 0 => simp at hn; exact ⟨[2, 1], by simp, 0, rfl, by rw [← hn]; rfl⟩
    | 1 => simp at hn; exact ⟨[1, 3], by simp, 1, rfl, by rw [← hn]; rfl⟩
    | i + 2 => simp at hn

end Test88

open Test88

/-- A dimension of size one that is not known to be is not broadcast by `aten.copy`, and elements from outside of it are read. -/
theorem C88_violated_copy : BroadcastsTo [1] [3] ∧
    ((lowerCopy false (fun l => l) ⟨iota [3] 0, [none]⟩ ⟨iota [1] 5, [none]⟩).map fun o => o.map fun t => (t.sizes, t.elem [1])) = some (some ([3], none)) := by
  refine ⟨⟨by decide, fun k n h => ?_⟩, by decide +kernel⟩
  match k with
  | 0 => simp at h; exact Or.inl h.symm
  | k + 1 => simp at h

/-- A size of -1 not known to be one fails the assertion. -/
theorem C88_violated_keep : Requests [3] [-1] [3] ∧ (lowerBroadcastTo false ⟨iota [3] 5, [none]⟩ [(-1, false)] [none]).map Option.isSome = some false := by
  refine ⟨⟨rfl, ⟨by decide, fun k n h => ?_⟩, fun i s h => ?_⟩, by decide +kernel⟩
  · match k with
    | 0 => simp at h; right; rw [← h]; rfl
    | k + 1 => simp at h
  · match i with
    | 0 => simp at h; right; rw [← h]; decide
    | i + 1 => simp at h

/-- A dimension of size one that is not known to be fails the assertion of elementwise operations, whatever its order. -/
theorem C88_violated_elementwise : IsCommonShape [[1], [3]] [3] ∧
    (elementwise false [⟨iota [1] 5, [none]⟩, ⟨iota [3] 6, [none]⟩] (fun l => l)).isNone = true ∧
    (elementwise false [⟨iota [3] 6, [some 3]⟩, ⟨iota [1] 5, [none]⟩] (fun l => l)).isNone = true := by
  refine ⟨⟨fun s hs => ?_, fun i n hn => ?_⟩, by decide +kernel, by decide +kernel⟩
  · simp only [List.mem_cons, List.not_mem_nil, or_false] at hs
    rcases hs with rfl | rfl
    · refine ⟨by decide, fun k n h => ?_⟩
      match k with
      | 0 => simp at h; exact Or.inl h.symm
      | k + 1 => simp at h
    · refine ⟨by decide, fun k n h => ?_⟩
      match k with
      | 0 => simp at h; right; rw [← h]; rfl
      | k + 1 => simp at h
  · match i with
    | 0 => simp at hn; exact ⟨[3], by simp, 0, rfl, by rw [← hn]; rfl⟩
    | i + 1 => simp at hn

end Verif
