import Verif.Spec.LinMatmul
import Verif.Lemmas.LinReduceInt
import Verif.Lemmas.LinBroadcast
import Verif.Lemmas.LinSqueeze
import Verif.Lemmas.LinViewFinish
import Verif.Lemmas.LinDiag
import Verif.Lemmas.LinPad

/-! # Lemmas for C96 -/

namespace Verif.Mat

open Lin Red

variable {A B C R : Type}

theorem fold_some {β : Type} (f : Nat → β → Option β) (g : Nat → β → β) : ∀ (l : List Nat) (c : β), (∀ k ∈ l, ∀ c, f k c = some (g k c)) →
    l.foldl (fun acc k => acc.bind (f k)) (some c) = some (l.foldl (fun c k => g k c) c)
  | [], _, _ => rfl
  | a :: l, c, h => by
    rw [List.foldl_cons, List.foldl_cons, Option.bind_some, h a (by simp) c]
    exact fold_some f g l _ fun k hk => h k (by simp [hk])

theorem contract_elem (ar : Arith A B C R) (x : Tensor A) (y : Tensor B) (sizes : List Int) (n : Int) (li ri : List Int → Int → List Int) (idx : List Int)
    (f : Int → A) (g : Int → B) (hf : ∀ k : Int, 0 ≤ k → k < n → x.get (li idx k) = some (f k)) (hg : ∀ k : Int, 0 ≤ k → k < n → y.get (ri idx k) = some (g k)) :
    ((contract ar x y sizes n li ri).elem idx).map ar.finish = some (total ar n f g) := by
  unfold contract total
  simp only
  rw [fold_some _ (fun (k : Nat) c => ar.mac (f k) (g k) c)]
  · rfl
  · intro k hk c
    have hk' : (k : Int) < n := by have := List.mem_range.1 hk; omega
    rw [hf k (by omega) hk', hg k (by omega) hk']
    rfl

theorem close_ok (ar : Arith A B C R) (resTy : List (Option Int)) (t : Tensor C) (h : TypeOf resTy t.sizes) :
    ∃ r, close ar resTy t = .ok r ∧ r.sizes = t.sizes ∧ ∀ idx, inRange t.sizes idx = true → r.elem idx = (t.elem idx).map ar.finish := by
  refine ⟨⟨t.sizes, fun idx => (t.get idx).map ar.finish⟩, ?_, rfl, fun idx hi => ?_⟩
  · unfold close
    rw [if_pos (castOk_iff.2 h)]
  · change (t.get idx).map _ = _
    rw [get_of_range hi]

/-- `broadcastToGivenShape` to known sizes. -/
theorem broadcast_given {E : Type} (strict : Bool) (src : Operand E) (target : List Int) (ty : List (Option Int)) (hself : TypeOf ty target)
    (hok : ∀ n ∈ target, 0 ≤ n) (ht : src.Typed) (hb : BroadcastsTo src.tensor.sizes target) (hd : NoDynamicBroadcast src target fun _ => True) :
    ∃ t, broadcastToGivenShape strict src target ty [] = some (some t) ∧ IsBroadcastOf t src.tensor target := by
  have htl : src.type.length = src.tensor.sizes.length := ht.1
  have hle : src.type.length ≤ target.length := by rw [htl]; exact hb.1
  have hty := hself.1
  have hpos : ∀ i, i < target.length → 0 ≤ target.getD i 0 := fun i hi => hok _ (List.mem_of_getElem? (getElem?_of_lt hi))
  have hold : ∀ k, ∃ b np, k < src.type.length →
      bcStep strict src target ty [] (k + (target.length - src.type.length)) =
        some ⟨target.getD (k + (target.length - src.type.length)) 0, some b, np, true⟩ ∧
      (b = true → src.type.getD k none = some 1) ∧
      (b = false → strict = true ∨ np = false → src.tensor.sizes.getD k 0 = target.getD (k + (target.length - src.type.length)) 0) := by
    intro k
    by_cases hk : k < src.type.length
    · have hp := hpos (k + (target.length - src.type.length)) (by omega)
      have hbk := hb.dim (k := k) (by omega)
      rw [← htl] at hbk
      obtain ⟨b, np, h1, h2, h3⟩ := oldDim_spec strict (target.getD (k + (target.length - src.type.length)) 0)
        (ty.getD (k + (target.length - src.type.length)) none) (src.type.getD k none) (src.tensor.sizes.getD k 0) false
        (target.getD (k + (target.length - src.type.length)) 0)
        (fun v hv => typeOf_getD ht hv) (fun v hv => typeOf_getD hself hv) hbk
        (fun _ _ => if_neg (by omega)) (fun _ _ h => by cases h)
        (fun h0 h1 _ => by
          cases hn : src.type.getD k none with
          | none => exact getD_of_eq (hd k trivial (typed_none hk hn))
          | some v =>
            have := typeOf_getD ht hn
            rcases hbk with h | h
            · exact absurd (by rw [hn, ← this, h]) h1
            · exact h)
        (fun hst hn => getD_of_eq (hd k trivial (typed_none hk hn)))
      refine ⟨b, np, fun _ => ⟨?_, h2, h3⟩⟩
      unfold bcStep
      dsimp only
      rw [if_neg (by omega), Nat.add_sub_cancel]
      exact h1
    · exact ⟨false, false, fun h => absurd h hk⟩
  choose b np hold using hold
  exact broadcast_core strict src ht target target ty [] rfl hb b np
    (fun i hi => by
      have := hpos i (by omega)
      unfold bcStep
      dsimp only
      rw [if_pos hi]
      unfold newDim
      cases hv : ty.getD i none with
      | some v =>
        have := typeOf_getD hself hv
        dsimp only
        rw [if_neg (by omega), this]
      | none =>
        dsimp only
        rw [decide_eq_true this, Bool.or_true])
    (fun k hk => (hold k hk).1) (fun k hk => (hold k hk).2.1) (fun k hk => (hold k hk).2.2)

/-! ## Batches -/

theorem common_length {lb rb batch : List Int} (h : IsCommonShape [lb, rb] batch) : batch.length = max lb.length rb.length := by
  have h1 := (h.1 lb (by simp)).1
  have h2 := (h.1 rb (by simp)).1
  cases batch with
  | nil => simp only [List.length_nil] at h1 h2 ⊢; omega
  | cons n batch =>
    obtain ⟨s, hs, k, hk, hn⟩ := h.2 0 n (by simp)
    simp only [List.mem_cons, List.not_mem_nil, or_false] at hs
    rcases hs with rfl | rfl <;> omega

theorem dim_batch {E : Type} {x : Operand E} {lb : List Int} {m k : Int} (hs : x.tensor.sizes = lb ++ [m, k]) {d : Nat} (hd : d < lb.length) :
    dim x d = lb.getD d 0 := by
  unfold dim
  rw [hs, List.getD_eq_getElem?_getD, List.getElem?_append_left hd, List.getD_eq_getElem?_getD]

theorem dim_last {E : Type} {x : Operand E} {lb : List Int} {m k : Int} (hs : x.tensor.sizes = lb ++ [m, k]) (ht : x.Typed) :
    x.type.length = lb.length + 2 ∧ dim x (x.type.length - 2) = m ∧ dim x (x.type.length - 1) = k := by
  have hl : x.type.length = lb.length + 2 := by rw [ht.1, hs]; simp
  refine ⟨hl, ?_, ?_⟩
  · unfold dim
    rw [hs, hl, List.getD_eq_getElem?_getD, List.getElem?_append_right (by omega)]
    simp
  · unfold dim
    rw [hs, hl, List.getD_eq_getElem?_getD, List.getElem?_append_right (by omega)]
    simp

theorem dimTy_dim {E : Type} {x : Operand E} (ht : x.Typed) {d : Nat} {v : Int} (h : dimTy x d = some v) : v = dim x d := (typeOf_getD ht h).symm

theorem dimTy_none {E : Type} (o : Operand E) (d : Nat) (hd : d < o.type.length) : dimTy o d = none ↔ o.type[d]? = some none := by
  unfold dimTy
  rw [List.getD_eq_getElem?_getD, List.getElem?_eq_getElem hd]
  simp

theorem unknown_at {E : Type} (o : Operand E) (N a p : Nat) (ha : N - a ≤ p) (hp : p - (N - a) < o.type.length) :
    (∃ d, d + (N + 2 - (a + 2)) = p ∧ o.type[d]? = some none) ↔ dimTy o (p - (N - a)) = none := by
  rw [dimTy_none o _ hp]
  constructor
  · rintro ⟨d, hd, h⟩
    rwa [show p - (N - a) = d by omega]
  · intro h
    exact ⟨_, by omega, h⟩

theorem batchDim_spec {x : Operand A} {y : Operand B} {lb rb batch : List Int} {m k k' n : Int} (hx : x.Typed) (hy : y.Typed)
    (hl : x.tensor.sizes = lb ++ [m, k]) (hr : y.tensor.sizes = rb ++ [k', n]) (hc : IsCommonShape [lb, rb] batch) (hpos : ∀ d ∈ batch, 0 < d) {p : Nat}
    (hp : p < batch.length) : (batchDim x y p).1 = batch.getD p 0 ∧ (∀ v, (batchDim x y p).2 = some v → v = batch.getD p 0) ∧
      ((batchDim x y p).2 = none ↔ (∃ d, d + (batch.length + 2 - x.type.length) = p ∧ x.type[d]? = some none) ∨
        (∃ d, d + (batch.length + 2 - y.type.length) = p ∧ y.type[d]? = some none)) := by
  have hN := common_length hc
  obtain ⟨hlx, -, -⟩ := dim_last hl hx
  obtain ⟨hly, -, -⟩ := dim_last hr hy
  have ht : 0 < batch.getD p 0 := hpos _ (List.mem_of_getElem? (getElem?_of_lt hp))
  have hdx : ∀ d, d < lb.length → d + (batch.length - lb.length) = p → dim x d = 1 ∨ dim x d = batch.getD p 0 := by
    intro d hd he
    have := (hc.1 lb (by simp)).dim (k := d) hd
    rw [he] at this
    rw [dim_batch hl hd]
    exact this
  have hdy : ∀ d, d < rb.length → d + (batch.length - rb.length) = p → dim y d = 1 ∨ dim y d = batch.getD p 0 := by
    intro d hd he
    have := (hc.1 rb (by simp)).dim (k := d) hd
    rw [he] at this
    rw [dim_batch hr hd]
    exact this
  have hone : (batch.length - lb.length ≤ p ∧ p - (batch.length - lb.length) < lb.length ∧ dim x (p - (batch.length - lb.length)) = batch.getD p 0) ∨
      (batch.length - rb.length ≤ p ∧ p - (batch.length - rb.length) < rb.length ∧ dim y (p - (batch.length - rb.length)) = batch.getD p 0) := by
    obtain ⟨s, hs, d, hd, hn⟩ := hc.2 p _ (getElem?_of_lt hp)
    have hlt : d < s.length := by
      by_cases h : d < s.length
      · exact h
      · rw [List.getElem?_eq_none (by omega)] at hn; cases hn
    simp only [List.mem_cons, List.not_mem_nil, or_false] at hs
    rcases hs with rfl | rfl
    · left
      rw [show p - (batch.length - s.length) = d by omega]
      refine ⟨by omega, hlt, ?_⟩
      rw [dim_batch hl hlt, List.getD_eq_getElem?_getD, hn]
      rfl
    · right
      rw [show p - (batch.length - s.length) = d by omega]
      refine ⟨by omega, hlt, ?_⟩
      rw [dim_batch hr hlt, List.getD_eq_getElem?_getD, hn]
      rfl
  unfold batchDim
  simp only [hlx, hly]
  rw [show max (lb.length + 2) (rb.length + 2) - 2 - p = batch.length - p by omega]
  by_cases hi : batch.length - p ≤ min (lb.length + 2) (rb.length + 2) - 2
  · rw [if_pos hi]
    have ex : lb.length + 2 - 2 - (batch.length - p) = p - (batch.length - lb.length) := by omega
    have ey : rb.length + 2 - 2 - (batch.length - p) = p - (batch.length - rb.length) := by omega
    rw [ex, ey]
    have h1 := hdx (p - (batch.length - lb.length)) (by omega) (by omega)
    have h2 := hdy (p - (batch.length - rb.length)) (by omega) (by omega)
    have hmax : max (dim x (p - (batch.length - lb.length))) (dim y (p - (batch.length - rb.length))) = batch.getD p 0 := by
      rcases hone with ⟨-, -, hv⟩ | ⟨-, -, hv⟩ <;> omega
    refine ⟨hmax, ?_, ?_⟩
    · intro v hv
      simp only at hv
      cases ha : dimTy x (p - (batch.length - lb.length)) with
      | none => rw [ha] at hv; simp at hv
      | some a =>
        cases hb : dimTy y (p - (batch.length - rb.length)) with
        | none => rw [ha, hb] at hv; simp at hv
        | some b =>
          rw [ha, hb] at hv
          simp only [Option.some.injEq] at hv
          rw [← hv, dimTy_dim hx ha, dimTy_dim hy hb, hmax]
    · rw [unknown_at x _ _ _ (by omega) (by omega), unknown_at y _ _ _ (by omega) (by omega)]
      cases dimTy x (p - (batch.length - lb.length)) <;> cases dimTy y (p - (batch.length - rb.length)) <;> simp
  · rw [if_neg hi]
    by_cases hlt : rb.length + 2 < lb.length + 2
    · rw [if_pos hlt]
      have ep : max (lb.length + 2) (rb.length + 2) - 2 - (batch.length - p) = p := by omega
      rw [ep]
      have hv : dim x p = batch.getD p 0 := by
        rcases hone with ⟨-, -, hv⟩ | ⟨h, h', -⟩
        · rwa [show p - (batch.length - lb.length) = p by omega] at hv
        · omega
      refine ⟨hv, fun v hv' => (dimTy_dim hx hv').trans hv, ?_⟩
      simp only
      rw [dimTy_none x p (by omega)]
      constructor
      · intro h
        exact .inl ⟨p, by omega, h⟩
      · rintro (⟨d, hd, h⟩ | ⟨d, hd, h⟩)
        · rwa [show p = d by omega]
        · omega
    · rw [if_neg hlt]
      have ep : max (lb.length + 2) (rb.length + 2) - 2 - (batch.length - p) = p := by omega
      rw [ep]
      have hv : dim y p = batch.getD p 0 := by
        rcases hone with ⟨h, h', -⟩ | ⟨-, -, hv⟩
        · omega
        · rwa [show p - (batch.length - rb.length) = p by omega] at hv
      refine ⟨hv, fun v hv' => (dimTy_dim hy hv').trans hv, ?_⟩
      simp only
      rw [dimTy_none y p (by omega)]
      constructor
      · intro h
        exact .inr ⟨p, by omega, h⟩
      · rintro (⟨d, hd, h⟩ | ⟨d, hd, h⟩)
        · omega
        · rwa [show p = d by omega]

end Verif.Mat
