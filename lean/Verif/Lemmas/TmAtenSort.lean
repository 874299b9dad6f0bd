import Verif.Lemmas.TmSort
import Verif.Spec.TmAten

namespace Verif.Tm

variable {F : Type}

theorem toSigned_torch (w b : Nat) : toSigned w b = torchInt w .signed b := rfl

theorem compareOp_torch (fc : FloatCmp F) (nan : F → Bool) (hf : fc.Ok nan) (ty : ElemTy)
    (hty : ty = .float ∨ ∃ w, ty = .int w .signed) (descending : Bool) :
    ∃ cmp, compareOp fc ty.toBackend descending true = some cmp ∧
      ∀ a b, Plain nan ty a → Plain nan ty b → cmp a b = inOrder (torchLe fc.ole nan ty) descending a b := by
  have key : ∀ a b, Plain nan ty a → Plain nan ty b → lessOp fc ty.toBackend true a b = torchLe fc.ole nan ty a b := by
    rcases hty with rfl | ⟨w, rfl⟩
    · intro a b ha hb
      cases a with
      | bits a => exact ha.elim
      | flt a =>
        cases b with
        | bits b => exact hb.elim
        | flt b =>
          have ha : nan a = false := ha
          have hb : nan b = false := hb
          simp [lessOp, ElemTy.toBackend, torchLe, ha, hb]
    · intro a b ha hb
      cases a with
      | flt a => exact ha.elim
      | bits a =>
        cases b with
        | flt b => exact hb.elim
        | bits b =>
          show decide (toSigned w a ≤ toSigned w b) = decide (torchInt w .signed a ≤ torchInt w .signed b)
          rw [toSigned_torch, toSigned_torch]
  have hne : ∃ cmp, compareOp fc ty.toBackend descending true = some cmp ∧
      cmp = fun a b => if descending then lessOp fc ty.toBackend true b a else lessOp fc ty.toBackend true a b := by
    rcases hty with rfl | ⟨w, rfl⟩ <;> exact ⟨_, rfl, rfl⟩
  obtain ⟨cmp, h1, rfl⟩ := hne
  refine ⟨_, h1, fun a b ha hb => ?_⟩
  unfold inOrder
  cases descending
  · exact key a b ha hb
  · exact key b a hb ha

theorem torchLe_order (fc : FloatCmp F) (nan : F → Bool) (hf : fc.Ok nan) (ty : ElemTy) (descending : Bool) :
    IsOrder (Plain nan ty) (inOrder (torchLe fc.ole nan ty) descending) := by
  have base : IsOrder (Plain nan ty) (torchLe fc.ole nan ty) := by
    constructor
    · intro a b ha hb
      cases ty with
      | other => exact ha.elim
      | float =>
        cases a with
        | bits a => exact ha.elim
        | flt a =>
          cases b with
          | bits b => exact hb.elim
          | flt b =>
            have ha : nan a = false := ha
            have hb : nan b = false := hb
            simpa [torchLe, ha, hb] using hf.order.total a b ha hb
      | int w s =>
        cases a with
        | flt a => exact ha.elim
        | bits a =>
          cases b with
          | flt b => exact hb.elim
          | bits b => simpa [torchLe] using Int.le_total _ _
    · intro a b c ha hb hc h1 h2
      cases ty with
      | other => exact ha.elim
      | float =>
        cases a with
        | bits a => exact ha.elim
        | flt a =>
          cases b with
          | bits b => exact hb.elim
          | flt b =>
            cases c with
            | bits c => exact hc.elim
            | flt c =>
              have ha : nan a = false := ha
              have hb : nan b = false := hb
              have hc : nan c = false := hc
              simp only [torchLe, ha, hb, hc, Bool.false_or, Bool.not_false, Bool.and_true] at h1 h2 ⊢
              exact hf.order.trans a b c ha hb hc h1 h2
      | int w s =>
        cases a with
        | flt a => exact ha.elim
        | bits a =>
          cases b with
          | flt b => exact hb.elim
          | bits b =>
            cases c with
            | flt c => exact hc.elim
            | bits c =>
              simp only [torchLe, decide_eq_true_eq] at h1 h2 ⊢
              omega
  unfold inOrder
  cases descending
  · exact base
  · exact ⟨fun a b ha hb => base.total b a hb ha, fun a b c ha hb hc h1 h2 => base.trans c b a hc hb ha h2 h1⟩

/-- What a tuple of the two operands is. -/
def good (p : Sc F → Prop) (t : List (Sc F ⊕ Int)) : Prop := ∃ v i, t = [.inl v, .inr i] ∧ p v

theorem region_tuple (cmp : Sc F → Sc F → Bool) (a b : Sc F) (i j : Int) :
    cmpOf (sortRegion cmp) [.inl a, .inr i] [.inl b, .inr j] = cmp a b := rfl

theorem order_tuples (p : Sc F → Prop) (cmp : Sc F → Sc F → Bool) (h : IsOrder p cmp) :
    IsOrder (good p) (cmpOf (sortRegion cmp)) := by
  constructor
  · rintro _ _ ⟨a, i, rfl, ha⟩ ⟨b, j, rfl, hb⟩
    exact h.total a b ha hb
  · rintro _ _ _ ⟨a, i, rfl, ha⟩ ⟨b, j, rfl, hb⟩ ⟨c, k, rfl, hc⟩ h1 h2
    exact h.trans a b c ha hb hc h1 h2

theorem operands_lane (d n : Nat) (input : Buf (Sc F)) (o : List Nat) (ho : d ≤ o.length) :
    lane (tuple 2 (sortOperands d input)) d n o
      = (List.range n).map fun k => [.inl (input (o.insertIdx d k)), .inr (k : Int)] := by
  refine List.map_congr_left fun k _ => ?_
  have : (o.insertIdx d k)[d]? = some k := by rw [List.getElem?_insertIdx_self, if_pos ho]
  show [Sum.inl (input (o.insertIdx d k)), Sum.inr (((o.insertIdx d k)[d]?.getD 0 : Nat) : Int)] = _
  rw [this]; rfl

theorem atenSort_lane (fc : FloatCmp F) (nan : F → Bool) (hf : fc.Ok nan) (ty : ElemTy)
    (hty : ty = .float ∨ ∃ w, ty = .int w .signed) (sizes : List Nat) (dim : Int) (d n : Nat)
    (hd : dim = d ∨ dim = (d : Int) - sizes.length) (hn : sizes[d]? = some n) (descending : Bool) (input : Buf (Sc F)) :
    ∃ out, atenSort fc ty sizes dim descending input = some out ∧
      ∀ o, InBox (sizes.eraseIdx d) o → (∀ x ∈ lane input d n o, Plain nan ty x) →
        ∃ values indices, lane (out 0) d n o = values.map .inl ∧ lane (out 1) d n o = indices.map .inr ∧
          IsStableSortOf (inOrder (torchLe fc.ole nan ty) descending) (lane input d n o) values indices := by
  have hdl : d < sizes.length := (List.getElem?_eq_some_iff.1 hn).1
  have hpos : positiveDim dim sizes.length = d := by
    unfold positiveDim
    rcases hd with rfl | rfl
    · rw [if_pos (by omega)]
    · rw [if_neg (by omega)]; omega
  obtain ⟨cmp, hcmp, hsame⟩ := compareOp_torch fc nan hf ty hty descending
  refine ⟨sort (sortRegion cmp) 2 d sizes (sortOperands d input), ?_, ?_⟩
  · unfold atenSort
    simp only [hpos]
    rw [if_pos (show validDim (d : Int) sizes.length = true from decide_eq_true (by omega)), hcmp]
    rfl
  intro o ho hin
  have hol : d ≤ o.length := ho.le hn
  have hle := torchLe_order fc nan hf ty descending
  have hord : IsOrder (Plain nan ty) cmp :=
    ⟨fun a b ha hb => by rw [hsame a b ha hb, hsame b a hb ha]; exact hle.total a b ha hb,
     fun a b c ha hb hc h1 h2 => by
      rw [hsame a b ha hb] at h1; rw [hsame b c hb hc] at h2; rw [hsame a c ha hc]
      exact hle.trans a b c ha hb hc h1 h2⟩
  have hsl := sort_lane (sortRegion cmp) 2 d n sizes hn (sortOperands d input) o ho
  have h0 := operands_lane d n input o hol
  have hst := iterate_stable (order_tuples (Plain nan ty) cmp hord) (lane (tuple 2 (sortOperands d input)) d n o) (by
    rw [h0]
    intro t ht
    obtain ⟨k, hk, rfl⟩ := List.mem_map.1 ht
    exact ⟨_, _, rfl, hin _ (List.mem_map.2 ⟨k, hk, rfl⟩)⟩)
  rw [lane_length, ← hsl] at hst
  obtain ⟨σ, hperm, hval, hpw⟩ := hst
  rw [lane_length] at hperm
  have hlt : ∀ i ∈ σ, i < n := fun i hi => List.mem_range.1 (hperm.mem_iff.1 hi)
  have hl0 : ∀ i, i < n → (lane (tuple 2 (sortOperands d input)) d n o)[i]?
      = some [.inl (input (o.insertIdx d i)), .inr (i : Int)] := by
    intro i hi
    rw [h0, List.getElem?_map, List.getElem?_range hi]; rfl
  have hval' : lane (tuple 2 (sort (sortRegion cmp) 2 d sizes (sortOperands d input))) d n o
      = σ.map fun i => [.inl (input (o.insertIdx d i)), .inr (i : Int)] := by
    have : (lane (tuple 2 (sort (sortRegion cmp) 2 d sizes (sortOperands d input))) d n o).map some
        = (σ.map fun i => [Sum.inl (input (o.insertIdx d i)), Sum.inr (i : Int)]).map some := by
      rw [hval, List.map_map]
      exact List.map_congr_left fun i hi => hl0 i (hlt i hi)
    exact (List.map_injective_iff.2 (Option.some_injective _)) this
  generalize sort (sortRegion cmp) 2 d sizes (sortOperands d input) = out at *
  have hcomp : ∀ j, j < 2 → ∀ dflt, lane (out j) d n o = (lane (tuple 2 out) d n o).map (fun t => t[j]?.getD dflt) := by
    intro j hj dflt
    unfold lane
    rw [List.map_map]
    refine List.map_congr_left fun k _ => ?_
    show _ = ((List.range 2).map fun o => out o _)[j]?.getD dflt
    rw [List.getElem?_map, List.getElem?_range hj]
    rfl
  refine ⟨σ.map fun i => input (o.insertIdx d i), σ.map fun i : Nat => (i : Int), ?_, ?_, σ, ?_, ?_, rfl, ?_⟩
  · rw [hcomp 0 (by decide) (.inr 0), hval', List.map_map, List.map_map]
    rfl
  · rw [hcomp 1 (by decide) (.inr 0), hval', List.map_map, List.map_map]
    rfl
  · rwa [lane_length]
  · rw [List.map_map]
    exact List.map_congr_left fun i hi => (lane_get input d n o (hlt i hi)).symm
  · refine List.Pairwise.imp_of_mem ?_ hpw
    intro i j hi hj h a b ha hb
    have hpa := hin a (List.mem_of_getElem? ha)
    have hpb := hin b (List.mem_of_getElem? hb)
    rw [lane_get input d n o (hlt i hi)] at ha
    rw [lane_get input d n o (hlt j hj)] at hb
    injection ha with ha
    injection hb with hb
    have := h _ _ (hl0 i (hlt i hi)) (hl0 j (hlt j hj))
    rw [region_tuple, region_tuple, ha, hb, hsame a b hpa hpb, hsame b a hpb hpa] at this
    exact this

theorem sorted_of_sort {T : Type} {le : T → T → Bool} {l values : List T} {indices : List Int} (h : IsSortOf le l values indices) :
    values.Pairwise fun a b => le a b = true := by
  obtain ⟨σ, _, hv, _, hp⟩ := h
  have : (values.map some).Pairwise fun a b => ∀ x y, a = some x → b = some y → le x y = true := by
    rw [hv, List.pairwise_map]
    exact hp
  rw [List.pairwise_map] at this
  exact this.imp fun h => h _ _ rfl rfl

end Verif.Tm
