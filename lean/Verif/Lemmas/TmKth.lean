import Verif.Lemmas.TmTopk
import Verif.Lemmas.TmAtenSort

namespace Verif.Tm

variable {F : Type}

theorem toSigned_inj {w a b : Nat} (ha : a < 2 ^ w) (hb : b < 2 ^ w) (h : toSigned w a = toSigned w b) : a = b := by
  have hc : ((2 ^ w : Nat) : Int) = 2 ^ w := by push_cast; rfl
  unfold toSigned at h
  rw [← hc] at h
  split at h <;> split at h <;> omega

/-- The comparison of the top k, and of the search. -/
theorem less_strict (fc : FloatCmp F) (nan : F → Bool) (hf : fc.Ok nan) (hdist : fc.Distinct nan) (ty : ElemTy)
    (hty : ty = .float ∨ ∃ w, 1 ≤ w ∧ ty = .int w .signed) :
    (∀ a b, Plain nan ty a → Plain nan ty b → lessOp fc ty.toBackend false a b = !torchLe fc.ole nan ty b a) ∧
    (∀ a b, Plain nan ty a → Plain nan ty b → lessOp fc ty false a b = !torchLe fc.ole nan ty b a) ∧
    (∀ a b, Plain nan ty a → Plain nan ty b → torchLe fc.ole nan ty a b = true → torchLe fc.ole nan ty b a = true → a = b) := by
  rcases hty with rfl | ⟨w, _, rfl⟩
  · have key : ∀ a b, Plain nan .float a → Plain nan .float b → lessOp fc .float false a b = !torchLe fc.ole nan .float b a := by
      intro a b ha hb
      cases a with
      | bits a => exact ha.elim
      | flt a =>
        cases b with
        | bits b => exact hb.elim
        | flt b =>
          have ha : nan a = false := ha
          have hb : nan b = false := hb
          simp [lessOp, torchLe, ha, hb, hf.lt a b ha hb]
    refine ⟨key, key, fun a b ha hb h1 h2 => ?_⟩
    cases a with
    | bits a => exact ha.elim
    | flt a =>
      cases b with
      | bits b => exact hb.elim
      | flt b =>
        have ha : nan a = false := ha
        have hb : nan b = false := hb
        simp only [torchLe, ha, hb, Bool.false_or, Bool.not_false, Bool.and_true] at h1 h2
        rw [hdist a b ha hb h1 h2]
  · have key : ∀ a b, Plain nan (.int w .signed) a → Plain nan (.int w .signed) b →
        lessOp fc (.int w .signed) false a b = !torchLe fc.ole nan (.int w .signed) b a := by
      intro a b ha hb
      cases a with
      | flt a => exact ha.elim
      | bits a =>
        cases b with
        | flt b => exact hb.elim
        | bits b =>
          show decide (toSigned w a < toSigned w b) = !decide (toSigned w b ≤ toSigned w a)
          rw [← decide_not]
          exact decide_eq_decide.2 (by omega)
    have e : lessOp fc (ElemTy.int w .signed).toBackend = lessOp fc (.int w .signed) := by
      funext o a b; cases a <;> cases b <;> rfl
    refine ⟨by rw [e]; exact key, key, fun a b ha hb h1 h2 => ?_⟩
    cases a with
    | flt a => exact ha.elim
    | bits a =>
      cases b with
      | flt b => exact hb.elim
      | bits b =>
        have h1 := of_decide_eq_true (show decide (toSigned w a ≤ toSigned w b) = true from h1)
        have h2 := of_decide_eq_true (show decide (toSigned w b ≤ toSigned w a) = true from h2)
        rw [toSigned_inj ha hb (by omega)]

theorem fills_ok (fc : FloatCmp F) (ff : FloatFill F) (nan : F → Bool) (hff : ff.Ok fc nan) (ty : ElemTy)
    (hty : ty = .float ∨ ∃ w, 1 ≤ w ∧ ty = .int w .signed) :
    Plain nan ty (kthFill ff ty) ∧ Plain nan ty (kthFillMax ff ty) ∧
      (∀ x, Plain nan ty x → torchLe fc.ole nan ty x (kthFill ff ty) = true) ∧
      (∀ x, Plain nan ty x → torchLe fc.ole nan ty (kthFillMax ff ty) x = true) := by
  rcases hty with rfl | ⟨w, hw, rfl⟩
  · refine ⟨hff.inf, hff.ninf, ?_, ?_⟩
    · intro x hx
      cases x with
      | bits x => exact hx.elim
      | flt x =>
        have hx : nan x = false := hx
        simp [torchLe, kthFill, hx, hff.le_inf x hx]
    · intro x hx
      cases x with
      | bits x => exact hx.elim
      | flt x =>
        have hx : nan x = false := hx
        simp [torchLe, kthFillMax, hx, hff.ninf_le x hx, hff.ninf]
  · obtain ⟨m, rfl⟩ : ∃ m, w = m + 1 := ⟨w - 1, by omega⟩
    have h2 : 2 ^ (m + 1) = 2 * 2 ^ m := by rw [Nat.pow_succ]; omega
    have hpos : 0 < 2 ^ m := Nat.two_pow_pos m
    have hc : ((2 : Int) ^ (m + 1)) = ((2 ^ (m + 1) : Nat) : Int) := by push_cast; rfl
    refine ⟨show 2 ^ m - 1 < 2 ^ (m + 1) by omega, show 2 ^ m < 2 ^ (m + 1) by omega, ?_, ?_⟩
    · intro x hx
      cases x with
      | flt x => exact hx.elim
      | bits x =>
        have hx : x < 2 ^ (m + 1) := hx
        show decide (toSigned (m + 1) x ≤ toSigned (m + 1) (2 ^ m - 1)) = true
        refine decide_eq_true ?_
        unfold toSigned
        rw [hc]
        split <;> split <;> omega
    · intro x hx
      cases x with
      | flt x => exact hx.elim
      | bits x =>
        have hx : x < 2 ^ (m + 1) := hx
        show decide (toSigned (m + 1) (2 ^ m) ≤ toSigned (m + 1) x) = true
        refine decide_eq_true ?_
        unfold toSigned
        rw [hc]
        split <;> split <;> omega

theorem atenKth_lane (fc : FloatCmp F) (ff : FloatFill F) (nan : F → Bool) (hf : fc.Ok nan) (hdist : fc.Distinct nan)
    (hff : ff.Ok fc nan) (ty : ElemTy) (hty : ty = .float ∨ ∃ w, 1 ≤ w ∧ ty = .int w .signed) (sizes : List Nat) (dim : Int)
    (d n k : Nat) (hd : dim = d ∨ dim = (d : Int) - sizes.length) (hn : sizes[d]? = some n) (hk : 1 ≤ k) (hkn : k ≤ n)
    (hn31 : n < 2 ^ 31) (input : Buf (Sc F)) :
    ∃ values indices, atenKth fc ff ty sizes dim k input = some (values, indices) ∧
      ∀ o, InBox (sizes.eraseIdx d) o → (∀ x ∈ lane input d n o, Plain nan ty x) →
        IsKth (torchLe fc.ole nan ty) k (lane input d n o) (values o) (indices o) := by
  have hdl : d < sizes.length := (List.getElem?_eq_some_iff.1 hn).1
  have hpos : positiveDim dim sizes.length = d := by
    unfold positiveDim
    rcases hd with rfl | rfl
    · rw [if_pos (by omega)]
    · rw [if_neg (by omega)]; omega
  obtain ⟨hb, hs, heq⟩ := less_strict fc nan hf hdist ty hty
  obtain ⟨f1, f2, f3, f4⟩ := fills_ok fc ff nan hff ty hty
  have hle := torchLe_order fc nan hf ty false
  have htot : ∀ a b, Plain nan ty a → Plain nan ty b → torchLe fc.ole nan ty a b = true ∨ torchLe fc.ole nan ty b a = true :=
    fun a b ha hb => hle.total a b ha hb
  have htr : ∀ a b c, Plain nan ty a → Plain nan ty b → Plain nan ty c → torchLe fc.ole nan ty a b = true →
      torchLe fc.ole nan ty b c = true → torchLe fc.ole nan ty a c = true := fun a b c ha hb hc => hle.trans a b c ha hb hc
  have hstrict : ∀ lt : Sc F → Sc F → Bool, (∀ a b, Plain nan ty a → Plain nan ty b → lt a b = !torchLe fc.ole nan ty b a) →
      IsStrict (Plain nan ty) lt := by
    intro lt h
    refine ⟨fun a b ha hb h1 => ?_, fun a b c ha hb hc h1 h2 => ?_, fun a b ha hb h1 h2 => ?_⟩
    · rw [h a b ha hb] at h1
      rw [h b a hb ha]
      have := (htot a b ha hb).resolve_right (by simpa using h1)
      rw [this]; rfl
    · rw [h a b ha hb] at h1
      rw [h b c hb hc] at h2
      rw [h a c ha hc]
      have hab := (htot a b ha hb).resolve_right (by simpa using h1)
      cases hca : torchLe fc.ole nan ty c a with
      | false => rfl
      | true =>
        have := htr c a b hc ha hb hca hab
        rw [this] at h2; cases h2
    · rw [h a b ha hb] at h1
      rw [h b a hb ha] at h2
      exact heq a b ha hb (by simpa using h2) (by simpa using h1)
  have hcmp : compareOp fc ty.toBackend false false = some (fun a b => lessOp fc ty.toBackend false a b) := by
    rcases hty with rfl | ⟨w, _, rfl⟩ <;> rfl
  refine ⟨_, _, by
    unfold atenKth
    simp only [hpos]
    rw [if_pos (show validDim (d : Int) sizes.length = true from decide_eq_true (by omega)), hcmp], fun o ho hin => ?_⟩
  have S := hstrict (fun a b => lessOp fc ty.toBackend false a b) hb
  have S2 := hstrict (fun a b => lessOp fc ty false a b) hs
  have hol : d ≤ o.length := ho.le hn
  rw [Int.toNat_natCast]
  generalize hout : topk (fun a b => lessOp fc ty.toBackend false a b) d k sizes input none (fun _ => kthFill ff ty)
    (fun _ => 2147483647) = out
  have hrep : pairLane (fun _ => kthFill ff ty) (fun _ => (2147483647 : Int)) d k o = List.replicate k (kthFill ff ty, 2147483647) := by
    unfold pairLane
    rw [List.map_const', List.length_range]
  have hbest := topk_best S d k n sizes hn input none (fun _ => kthFill ff ty) (fun _ => 2147483647) o ho hin (by
      intro x hx
      obtain ⟨_, _, rfl⟩ := List.mem_map.1 hx
      exact f1) (by
      rw [hrep, List.pairwise_replicate]
      right
      have : lessOp fc ty.toBackend false (kthFill ff ty) (kthFill ff ty) = false := by
        rw [hb _ _ f1 f1, f3 _ f1]; rfl
      simp [bestFirst, this])
  rw [hout, hrep] at hbest
  have hreal : pairLane input (topkIndex d none) d n o
      = (List.range (lane input d n o).length).map fun i : Nat => ((lane input d n o)[i]?.getD (kthFill ff ty), (i : Int)) := by
    rw [lane_length]
    refine List.map_congr_left fun i hi => ?_
    have hi := List.mem_range.1 hi
    rw [lane_get _ _ _ _ hi]
    have : (o.insertIdx d i)[d]? = some i := by rw [List.getElem?_insertIdx_self, if_pos hol]
    simp [topkIndex, this]
  rw [hreal] at hbest
  -- the search
  have hg : ∀ i, i < k → Plain nan ty (out.1 (o.insertIdx d i)) := by
    intro i hi
    obtain ⟨rest, hp, _, _⟩ := hbest
    have hm : (out.1 (o.insertIdx d i), out.2 (o.insertIdx d i)) ∈ pairLane out.1 out.2 d k o :=
      List.mem_map.2 ⟨i, List.mem_range.2 hi, rfl⟩
    have := hp.mem_iff.1 (List.mem_append_left _ hm)
    rcases List.mem_append.1 this with h | h
    · have e := (List.mem_replicate.1 h).2
      have e := congrArg Prod.fst e
      dsimp only at e
      rw [e]; exact f1
    · obtain ⟨j, hj, e⟩ := List.mem_map.1 h
      have hj := List.mem_range.1 hj
      rw [lane_length] at hj
      have e := congrArg Prod.fst e
      dsimp only at e
      rw [← e, lane_get _ _ _ _ hj]
      exact hin _ (List.mem_map.2 ⟨j, List.mem_range.2 hj, rfl⟩)
  have hmf := max_fold S2 (kthFillMax ff ty) f2 (fun x hx => by rw [hs _ _ hx f2, f4 x hx]; rfl)
    (fun i => out.1 (o.insertIdx d i)) k hg k (Nat.le_refl k)
  have hmx : (List.range k).foldl (fun (r : Sc F × Nat) i => if lessOp fc ty false r.1 (out.1 (o.insertIdx d i)) then
      (out.1 (o.insertIdx d i), i) else r) (kthFillMax ff ty, 0) = kthMax fc ff ty k fun i => out.1 (o.insertIdx d i) := rfl
  rw [hmx] at hmf
  generalize kthMax fc ff ty k (fun i => out.1 (o.insertIdx d i)) = r at *
  obtain ⟨m0, m1, _, m3⟩ := hmf
  obtain ⟨m4, m5⟩ := m3 hk
  have hfin := kth_best S (kthFill ff ty) 2147483647 (fun x hx => by rw [hb _ _ f1 hx, f3 x hx]; rfl) f1 (lane input d n o) hin
    (by rw [lane_length]; omega) k (by rw [lane_length]; exact hkn) _ (pairLane_length _ _ _ _ _) hbest
    r.1 (out.2 (o.insertIdx d r.2)) (List.mem_map.2 ⟨r.2, List.mem_range.2 m4, by rw [m5]⟩) (fun y hy => by
      obtain ⟨i, hi, rfl⟩ := List.mem_map.1 hy
      have hi := List.mem_range.1 hi
      have := m1 i hi
      rw [hb _ _ m0 (hg i hi), ← hs _ _ m0 (hg i hi)]
      exact this)
  obtain ⟨q1, q2, q3⟩ := hfin
  refine ⟨q1, ?_, ?_⟩
  · refine lt_of_eq_of_lt ?_ q2
    apply List.countP_congr
    intro x hx
    rw [hb _ _ (hin x hx) m0]
  · refine le_of_le_of_eq q3 ?_
    apply List.countP_congr
    intro x hx
    rw [hb _ _ m0 (hin x hx), Bool.not_not]

end Verif.Tm
