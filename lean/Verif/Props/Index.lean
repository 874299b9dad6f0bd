import Verif.Props.Broadcast
import Verif.Model.ShapeIndex
import Verif.Spec.Index

/-!
# C37: the shape of indexing with index tensors
-/

namespace Verif

open Shape

namespace Shape

/-- The sizes without an index tensor. -/
def keptSizes : List Int → List (Option (List Int)) → List Int
  | [], _ => []
  | x :: xs, [] => x :: keptSizes xs []
  | x :: xs, none :: is => x :: keptSizes xs is
  | _ :: xs, some _ :: is => keptSizes xs is

theorem keptSizes_nil (xs : List Int) : keptSizes xs [] = xs := by
  induction xs with
  | nil => rfl
  | cons x xs ih => rw [keptSizes, ih]

theorem indexSplit_nil (b xs : List Int) : indexSplit b xs [] = .ok (b, xs) := by
  induction xs with
  | nil => rfl
  | cons x xs ih => rw [indexSplit, ih]

theorem indexSplit_eq (b self : List Int) (indices : List (Option (List Int)))
    (h : indices.length ≤ self.length) :
    indexSplit b self indices = match pyFold broadcast b (indices.filterMap id) with
      | .error e => .error e
      | .ok b' => .ok (b', keptSizes self indices) := by
  induction indices generalizing b self with
  | nil => rw [indexSplit_nil, keptSizes_nil]; rfl
  | cons i is ih =>
    cases self with
    | nil => simp at h
    | cons x xs =>
      simp only [List.length_cons, Nat.add_le_add_iff_right] at h
      cases i with
      | none =>
        rw [indexSplit, ih b xs h]
        simp only [List.filterMap_cons, id]
        cases pyFold broadcast b (is.filterMap id) <;> rfl
      | some t =>
        rw [indexSplit]
        simp only [List.filterMap_cons, id]
        unfold pyFold
        cases broadcast b t with
        | error e => rfl
        | ok b1 => simp only; rw [ih b1 xs h]; rfl

theorem gapDims_cons (n : Nat) (i : Option (List Int)) (is : List (Option (List Int))) :
    gapDims (n + 1) (i :: is) = (if i.isNone then [0] else []) ++ (gapDims n is).map (· + 1) := by
  unfold gapDims
  rw [List.range_succ_eq_map, List.filter_cons, List.filter_map]
  have : (List.range n).filter ((fun j => ((i :: is)[j]?.getD none).isNone) ∘ Nat.succ) =
      (List.range n).filter (fun j => (is[j]?.getD none).isNone) := by
    apply List.filter_congr
    intro j _
    simp
  rw [this]
  cases i <;> simp

theorem gapDims_nil (n : Nat) : gapDims n [] = List.range n := by
  unfold gapDims
  simp

theorem picks_all (self : List Int) : Picks self (List.range self.length) self := by
  unfold Picks
  apply List.ext_getElem
  · simp
  · intro i h1 h2
    simp at h1
    simp [h1]

theorem picks_keptSizes (self : List Int) (indices : List (Option (List Int))) (h : indices.length ≤ self.length) :
    Picks self (gapDims self.length indices) (keptSizes self indices) := by
  induction indices generalizing self with
  | nil => rw [keptSizes_nil, gapDims_nil]; exact picks_all self
  | cons i is ih =>
    cases self with
    | nil => simp at h
    | cons x xs =>
      simp only [List.length_cons, Nat.add_le_add_iff_right] at h
      have := ih xs h
      rw [List.length_cons, gapDims_cons]
      unfold Picks at this ⊢
      cases i with
      | none =>
        rw [keptSizes]
        simp only [Option.isNone_none, if_true, List.map_cons, List.map_append, List.map_map, this]
        simp
      | some t =>
        rw [keptSizes]
        simp only [Option.isNone_some, List.map_append, List.map_map, this]
        simp

theorem picks_unique {self c c' : List Int} {p : List Nat} (h : Picks self p c) (h' : Picks self p c') :
    c = c' := by
  unfold Picks at h h'
  rw [← h'] at h
  exact (List.map_inj_right (fun _ _ hxy => Option.some.inj hxy)).mp h

theorem keptSizes_gaps (self : List Int) (q : Nat) : keptSizes self (List.replicate q none) = self := by
  induction q generalizing self with
  | zero => exact keptSizes_nil self
  | succ q ih => cases self with
    | nil => rfl
    | cons x xs => rw [List.replicate_succ, keptSizes, ih]

theorem keptSizes_shapes (self : List Int) (ts : List (List Int)) (is : List (Option (List Int))) :
    keptSizes self (ts.map some ++ is) = keptSizes (self.drop ts.length) is := by
  induction ts generalizing self with
  | nil => rfl
  | cons t ts ih => cases self with
    | nil => simp [keptSizes]
    | cons x xs => simp only [List.map_cons, List.cons_append, keptSizes, ih, List.length_cons, List.drop_succ_cons]

theorem keptSizes_adjacent (self : List Int) (p q : Nat) (ts : List (List Int)) :
    keptSizes self (List.replicate p none ++ ts.map some ++ List.replicate q none) =
      self.take p ++ self.drop (p + ts.length) := by
  induction p generalizing self with
  | zero => simp [keptSizes_shapes, keptSizes_gaps]
  | succ p ih => cases self with
    | nil => simp [keptSizes]
    | cons x xs =>
      simp only [List.replicate_succ, List.cons_append, keptSizes]
      rw [ih, show p + 1 + ts.length = p + ts.length + 1 by omega]
      simp

theorem place_false (e : Nat) (s : IndexPlace) (is : List (Option (List Int))) (h : s.together = false) :
    (indexPlace e s is).together = false := by
  induction is generalizing e s with
  | nil => exact h
  | cons i is ih => cases i with
    | none => exact ih _ _ h
    | some t =>
      rw [indexPlace]
      apply ih
      simp only [h]
      split <;> simp

theorem place_gaps (e : Nat) (s : IndexPlace) (q : Nat) : indexPlace e s (List.replicate q none) = s := by
  induction q generalizing e with
  | zero => rfl
  | succ q ih => rw [List.replicate_succ, indexPlace, ih]

/-- After a gap behind index tensors: together exactly when only gaps follow. -/
theorem place_after (e : Nat) (s : IndexPlace) (is : List (Option (List Int))) (hf : s.first ≠ -1)
    (hl : s.last + 1 < e) (ht : (indexPlace e s is).together = true) :
    is = List.replicate is.length none := by
  induction is generalizing e s with
  | nil => rfl
  | cons i is ih => cases i with
    | none =>
      rw [indexPlace] at ht
      rw [List.length_cons, List.replicate_succ, ← ih _ _ hf (by omega) ht]
    | some t =>
      rw [indexPlace, place_false _ _ _ (by simp only [if_neg hf]; rw [if_pos (by omega)])] at ht
      cases ht

theorem place_running (e : Nat) (s : IndexPlace) (is : List (Option (List Int))) (hf : s.first ≠ -1)
    (hl : s.last + 1 = e) (ht : (indexPlace e s is).together = true) :
    ∃ ts q, is = List.map some ts ++ List.replicate q none := by
  induction is generalizing e s with
  | nil => exact ⟨[], 0, rfl⟩
  | cons i is ih => cases i with
    | none =>
      rw [indexPlace] at ht
      have := place_after _ _ _ hf (by omega) ht
      exact ⟨[], is.length + 1, by rw [List.replicate_succ, ← this]; rfl⟩
    | some t =>
      rw [indexPlace] at ht
      obtain ⟨ts, q, rfl⟩ := ih (e + 1) _ (by simpa [hf] using hf) (by simp) ht
      exact ⟨t :: ts, q, rfl⟩

theorem place_fresh (e : Nat) (s : IndexPlace) (is : List (Option (List Int))) (hf : s.first = -1)
    (ht : (indexPlace e s is).together = true) :
    ∃ p ts q, is = List.replicate p none ++ List.map some ts ++ List.replicate q none := by
  induction is generalizing e s with
  | nil => exact ⟨0, [], 0, rfl⟩
  | cons i is ih => cases i with
    | none =>
      rw [indexPlace] at ht
      obtain ⟨p, ts, q, h⟩ := ih _ _ hf ht
      exact ⟨p + 1, ts, q, by rw [h, List.replicate_succ]; simp⟩
    | some t =>
      rw [indexPlace] at ht
      obtain ⟨ts, q, rfl⟩ := place_running (e + 1) _ _ (by simp only [hf, if_true]; omega) (by simp) ht
      exact ⟨0, t :: ts, q, rfl⟩

theorem place_shapes (e : Nat) (s : IndexPlace) (ts : List (List Int)) (q : Nat) (hf : s.first ≠ -1)
    (hl : s.last + 1 = e) :
    (indexPlace e s (ts.map some ++ List.replicate q none)).first = s.first ∧
    (indexPlace e s (ts.map some ++ List.replicate q none)).together = s.together := by
  induction ts generalizing e s with
  | nil => simp only [List.map_nil, List.nil_append, place_gaps]; exact ⟨trivial, trivial⟩
  | cons t ts ih =>
    simp only [List.map_cons, List.cons_append]
    rw [indexPlace]
    obtain ⟨h1, h2⟩ := ih (e + 1) ⟨if s.first = -1 then e else s.first, e,
      if s.first = -1 then s.together else if (e : Int) - s.last ≠ 1 then false else s.together⟩
      (by simpa [hf] using hf) (by simp)
    rw [h1, h2]
    simp only [if_neg hf]
    rw [if_neg (by omega)]
    exact ⟨trivial, rfl⟩

theorem place_adjacent (e : Nat) (s : IndexPlace) (p q : Nat) (ts : List (List Int)) (hne : ts ≠ [])
    (hf : s.first = -1) :
    (indexPlace e s (List.replicate p none ++ ts.map some ++ List.replicate q none)).first = (e + p : Nat) ∧
    (indexPlace e s (List.replicate p none ++ ts.map some ++ List.replicate q none)).together = s.together := by
  induction p generalizing e with
  | zero =>
    cases ts with
    | nil => exact absurd rfl hne
    | cons t ts =>
      simp only [List.replicate_zero, List.nil_append, List.map_cons, List.cons_append]
      rw [indexPlace]
      obtain ⟨h1, h2⟩ := place_shapes (e + 1) ⟨if s.first = -1 then e else s.first, e,
        if s.first = -1 then s.together else if (e : Int) - s.last ≠ 1 then false else s.together⟩ ts q
        (by simp only [hf, if_true]; omega) (by simp)
      rw [h1, h2]
      simp only [hf, if_true]
      exact ⟨rfl, trivial⟩
  | succ p ih =>
    simp only [List.replicate_succ, List.cons_append]
    rw [indexPlace]
    obtain ⟨h1, h2⟩ := ih (e + 1)
    rw [h1, h2]
    exact ⟨by omega, rfl⟩

theorem Adjacent.unique {indices : List (Option (List Int))} {p p' : Nat} {ts ts' : List (List Int)}
    (h : Adjacent indices p ts) (h' : Adjacent indices p' ts') : p = p' ∧ ts = ts' := by
  obtain ⟨hne, q, hq⟩ := h
  obtain ⟨hne', q', hq'⟩ := h'
  constructor
  · have h1 := (place_adjacent 0 ⟨-1, -1, true⟩ p q ts hne rfl).1
    have h2 := (place_adjacent 0 ⟨-1, -1, true⟩ p' q' ts' hne' rfl).1
    rw [← hq] at h1
    rw [← hq', h1] at h2
    omega
  · have e1 : indices.filterMap id = ts := by
      rw [hq]; simp [List.filterMap_append]
    have e2 : indices.filterMap id = ts' := by
      rw [hq']; simp [List.filterMap_append]
    rw [← e1, e2]

theorem fold_nil_iff (ts : List (List Int)) (hne : ts ≠ []) (b : List Int) :
    pyFold broadcast [] ts = .ok b ↔ IsBroadcastAll ts b := by
  cases ts with
  | nil => exact absurd rfl hne
  | cons t ts =>
    rw [← fold_broadcast_iff]
    rw [pyFold, broadcast_nil]

end Shape

/-- The shape of indexing with at least one index tensor, for every pattern of index tensors and gaps. -/
theorem C37_index (self : List Int) (indices : List (Option (List Int))) (hne : ∃ t, some t ∈ indices)
    (c : List Int) : indexTensorLike self indices = .ok c ↔ IsIndexed self indices c := by
  have hts : indices.filterMap id ≠ [] := by
    obtain ⟨t, ht⟩ := hne
    intro h0
    have : t ∈ indices.filterMap id := List.mem_filterMap.mpr ⟨some t, ht, rfl⟩
    rw [h0] at this
    simp at this
  unfold indexTensorLike IsIndexed
  rcases Nat.lt_or_ge self.length indices.length with hl' | hl
  · have hl : ¬ indices.length ≤ self.length := by omega
    rw [if_pos (by omega)]
    constructor
    · intro h; cases h
    · rintro ⟨h, _⟩; exact absurd h hl
  rw [if_neg (by omega), indexSplit_eq [] self indices hl]
  simp only [hl, true_and]
  cases hb : pyFold broadcast [] (indices.filterMap id) with
  | error e =>
    simp only [reduceCtorEq, false_iff]
    rintro ⟨b, hb', _⟩
    rw [(fold_nil_iff _ hts b).mpr hb'] at hb
    cases hb
  | ok b =>
    simp only
    have hbb := (fold_nil_iff _ hts b).mp hb
    have huniq : ∀ b', IsBroadcastAll (indices.filterMap id) b' → b' = b := by
      intro b' h
      have := (fold_nil_iff _ hts b').mpr h
      rw [hb] at this
      exact (Except.ok.inj this).symm
    by_cases hadj : ∃ p ts, Adjacent indices p ts
    · obtain ⟨p, ts, ha⟩ := hadj
      have hres : (if (keptSizes self indices).length = 0 then .ok b
          else if (indexPlace 0 ⟨-1, -1, true⟩ indices).together = false then .ok (b ++ keptSizes self indices)
          else indexInsert (indexPlace 0 ⟨-1, -1, true⟩ indices).first b (keptSizes self indices)) =
          (.ok (self.take p ++ b ++ self.drop (p + ts.length)) : Py (List Int)) := by
        obtain ⟨hn, q, rfl⟩ := ha
        obtain ⟨h1, h2⟩ := place_adjacent 0 ⟨-1, -1, true⟩ p q ts hn rfl
        rw [h1, h2, keptSizes_adjacent]
        simp only [List.length_append, List.length_replicate, List.length_map] at hl
        by_cases h0 : (self.take p ++ self.drop (p + ts.length)).length = 0
        · rw [if_pos h0]
          have h3 : self.take p ++ self.drop (p + ts.length) = [] := List.length_eq_zero_iff.mp h0
          rw [List.append_eq_nil_iff] at h3
          rw [h3.1, h3.2]
          simp
        · rw [if_neg h0, if_neg (by simp)]
          unfold indexInsert
          have hp : (self.take p).length = p := by rw [List.length_take]; omega
          rw [if_neg (by omega), if_pos (by rw [List.length_append, hp]; omega)]
          simp only [Nat.zero_add, Int.toNat_natCast]
          have e1 : (self.take p ++ self.drop (p + ts.length)).take p = self.take p :=
            List.take_left' hp
          have e2 : (self.take p ++ self.drop (p + ts.length)).drop p = self.drop (p + ts.length) :=
            List.drop_left' hp
          rw [e1, e2]
      rw [hres]
      constructor
      · intro h
        refine ⟨b, hbb, ?_, fun hn => absurd ⟨p, ts, ha⟩ hn⟩
        intro p' ts' ha'
        obtain ⟨rfl, rfl⟩ := ha.unique ha'
        exact (Except.ok.inj h).symm
      · rintro ⟨b', hb', h, _⟩
        rw [h p ts ha, huniq b' hb']
    · have htog : (indexPlace 0 ⟨-1, -1, true⟩ indices).together = false := by
        cases ht : (indexPlace 0 ⟨-1, -1, true⟩ indices).together with
        | false => rfl
        | true =>
          exfalso
          obtain ⟨p, ts, q, h⟩ := place_fresh 0 ⟨-1, -1, true⟩ indices rfl ht
          apply hadj
          refine ⟨p, ts, ?_, q, h⟩
          rintro rfl
          apply hts
          rw [h]
          simp [List.filterMap_append]
      have hres : (if (keptSizes self indices).length = 0 then .ok b
          else if (indexPlace 0 ⟨-1, -1, true⟩ indices).together = false then .ok (b ++ keptSizes self indices)
          else indexInsert (indexPlace 0 ⟨-1, -1, true⟩ indices).first b (keptSizes self indices)) =
          (.ok (b ++ keptSizes self indices) : Py (List Int)) := by
        by_cases h0 : (keptSizes self indices).length = 0
        · rw [if_pos h0, List.length_eq_zero_iff.mp h0, List.append_nil]
        · rw [if_neg h0, if_pos htog]
      rw [hres]
      constructor
      · intro h
        refine ⟨b, hbb, fun p ts ha => absurd ⟨p, ts, ha⟩ hadj, fun _ => ⟨_, picks_keptSizes self indices hl, ?_⟩⟩
        exact (Except.ok.inj h).symm
      · rintro ⟨b', hb', _, h⟩
        obtain ⟨kept, hk, rfl⟩ := h hadj
        rw [huniq b' hb', picks_unique hk (picks_keptSizes self indices hl)]

example : indexTensorLike [2, 3, 4, 5] [none, some [4], some [6, 1]] = .ok [2, 6, 4, 5] ∧
    indexTensorLike [2, 3, 4, 5] [some [4, 2], none, some [2]] = .ok [4, 2, 3, 5] ∧
    Adjacent [none, some [4], some [6, 1]] 1 [[4], [6, 1]] := by
  refine ⟨by decide +kernel, by decide +kernel, by simp, 0, rfl⟩

/-- With gaps only, nothing is indexed and the shape should stay; the code repeats the last dimension in
front. -/
theorem C37_violated : indexTensorLike [2, 3] [none] = .ok [3, 2, 3] ∧ indexTensorLike [2, 3] [] = .ok [3, 2, 3] := by
  refine ⟨?_, ?_⟩ <;> decide +kernel

/-- The violation in general. -/
theorem C37_gaps_violated (self : List Int) (x : Int) (q : Nat) (hq : q ≤ self.length + 1) :
    indexTensorLike (self ++ [x]) (List.replicate q none) = .ok (x :: (self ++ [x])) := by
  unfold indexTensorLike
  have hs := indexSplit_eq [] (self ++ [x]) (List.replicate q none) (by simpa using hq)
  have hf : (List.replicate q (none : Option (List Int))).filterMap id = [] := by simp
  rw [hf] at hs
  simp only [pyFold] at hs
  rw [if_neg (by simp; omega), hs, place_gaps, keptSizes_gaps]
  simp only
  rw [if_neg (by simp), if_neg (by simp)]
  unfold indexInsert
  rw [if_pos (by omega)]
  have := pyGet_neg (self ++ [x]) 1 (by omega) (by simp)
  rw [show (-((1 : Nat) : Int)) = -1 by rfl] at this
  rw [this]
  simp

end Verif
