import Verif.Spec.LinUnpool
import Verif.Lemmas.LinConvBack
import Verif.Lemmas.LinPoolAdaptive

/-! # Unpoolings -/

namespace Verif.Unpool

open Lin Conv

variable {E : Type}

/-- A place of the result in the padded result. -/
def shift (ws : List Win) (o : List Int) : List Int := List.zipWith (fun i (w : Win) => i + w.padding) o ws

/-- The window of a place. -/
def cell (ws : List Win) (o : List Int) : List Int := List.zipWith (fun i (w : Win) => i.fdiv w.stride) (shift ws o) ws

theorem good_lengths : ∀ {ws : List Win} {ins outs : List Int}, Good ws ins outs → ins.length = ws.length ∧ outs.length = ws.length
  | [], [], [], _ => ⟨rfl, rfl⟩
  | w :: ws, n :: ins, out :: outs, h => by
    obtain ⟨h1, h2⟩ := good_lengths h.2
    simp [h1, h2]
  | [], [], _ :: _, h => h.elim
  | [], _ :: _, [], h => h.elim
  | [], _ :: _, _ :: _, h => h.elim
  | _ :: _, [], [], h => h.elim
  | _ :: _, [], _ :: _, h => h.elim
  | _ :: _, _ :: _, [], h => h.elim

theorem linear_some : ∀ (outs : List Int) (ws : List Win) (o : List Int) (r : Int), outs.length = ws.length → o.length = ws.length →
    linear (some r) outs ws (shift ws o) = some (r * outs.prod + position outs o)
  | [], [], [], r, _, _ => by simp [linear, position]
  | out :: outs, w :: ws, i :: o, r, h1, h2 => by
    have e : (if w.padding ≠ 0 then i + w.padding - w.padding else i + w.padding) = i := by
      by_cases q : w.padding = 0
      · rw [if_neg (fun h => h q), q]; omega
      · rw [if_pos q]; omega
    show linear (some (r * out + (if w.padding ≠ 0 then i + w.padding - w.padding else i + w.padding))) outs ws (shift ws o) = _
    rw [e, linear_some outs ws o _ (by simpa using h1) (by simpa using h2)]
    simp only [position, List.prod_cons, Int.add_mul, Int.mul_assoc, Int.add_assoc]
  | [], [], _ :: _, _, _, h2 => by simp at h2
  | [], _ :: _, _, _, h1, _ => by simp at h1
  | _ :: _, [], _, _, h1, _ => by simp at h1
  | _ :: _, _ :: _, [], _, _, h2 => by simp at h2

theorem linear_none {outs : List Int} {ws : List Win} {o : List Int} (h0 : ws ≠ []) (h1 : outs.length = ws.length) (h2 : o.length = ws.length) :
    linear none outs ws (shift ws o) = some (position outs o) := by
  cases ws with
  | nil => exact absurd rfl h0
  | cons w ws =>
    cases outs with
    | nil => simp at h1
    | cons out outs =>
      cases o with
      | nil => simp at h2
      | cons i o =>
        have e : (if w.padding ≠ 0 then i + w.padding - w.padding else i + w.padding) = i := by
          by_cases q : w.padding = 0
          · rw [if_neg (fun h => h q), q]; omega
          · rw [if_pos q]; omega
        show linear (some (if w.padding ≠ 0 then i + w.padding - w.padding else i + w.padding)) outs ws (shift ws o) = _
        rw [e, linear_some outs ws o _ (by simpa using h1) (by simpa using h2)]
        rfl

/-- The padded input reaches the window of each place. -/
theorem cell_range : ∀ {ws : List Win} {ins outs o : List Int}, Good ws ins outs → inRange outs o = true → inRange (List.zipWith expected outs ws) (cell ws o) = true
  | [], [], [], o, _, h => by rw [inRange_nil h]; rfl
  | w :: ws, n :: ins, out :: outs, o, hg, h => by
    obtain ⟨i, o, rfl, h1, h2, h3⟩ := inRange_uncons h
    obtain ⟨⟨g1, g2, g3, g4, g5⟩, g6⟩ := hg
    show inRange (expected out w :: List.zipWith expected outs ws) ((i + w.padding).fdiv w.stride :: cell ws o) = true
    refine inRange_cons.2 ⟨?_, cell_range g6 h3⟩
    rw [Int.fdiv_eq_ediv_of_nonneg _ (by omega)]
    refine ⟨Int.ediv_nonneg (by omega) (by omega), ?_⟩
    unfold expected
    rw [Int.tdiv_eq_ediv_of_nonneg (by omega)]
    apply Int.ediv_lt_of_lt_mul g1
    have q := Int.lt_ediv_add_one_mul_self (out + w.stride - 1) g1
    have r : w.padding * 2 ≤ w.padding * 2 * w.stride := by nlinarith
    rw [Int.add_mul] at *
    omega
  | [], [], _ :: _, _, h, _ => h.elim
  | [], _ :: _, [], _, h, _ => h.elim
  | [], _ :: _, _ :: _, _, h, _ => h.elim
  | _ :: _, [], [], _, h, _ => h.elim
  | _ :: _, [], _ :: _, _, h, _ => h.elim
  | _ :: _, _ :: _, [], _, h, _ => h.elim

/-- The input is never larger than what it is brought to. -/
theorem high_nonneg : ∀ {ws : List Win} {ins outs : List Int}, Good ws ins outs →
    (List.zipWith (· - ·) (List.zipWith expected outs ws) ins).all (fun h => decide (0 ≤ h)) = true
  | [], [], [], _ => rfl
  | w :: ws, n :: ins, out :: outs, hg => by
    obtain ⟨⟨g1, g2, g3, g4, g5⟩, g6⟩ := hg
    simp only [List.zipWith_cons_cons, List.all_cons, Bool.and_eq_true]
    refine ⟨decide_eq_true ?_, high_nonneg g6⟩
    unfold expected
    rw [Int.tdiv_eq_ediv_of_nonneg (by omega)]
    have q := Int.lt_ediv_add_one_mul_self (out + w.stride - 1) g1
    have r : w.padding * 2 ≤ w.padding * 2 * w.stride := by nlinarith
    by_contra c
    have c' : (out + w.stride - 1) / w.stride + w.padding * 2 ≤ n - 1 := by omega
    have m := mul_le_mul_of_nonneg_right c' (le_of_lt g1)
    rw [Int.add_mul] at *
    omega
  | [], [], _ :: _, h => h.elim
  | [], _ :: _, [], h => h.elim
  | [], _ :: _, _ :: _, h => h.elim
  | _ :: _, [], [], h => h.elim
  | _ :: _, [], _ :: _, h => h.elim
  | _ :: _, _ :: _, [], h => h.elim

theorem within_cell : ∀ {ws : List Win} {ins outs p o : List Int}, Good ws ins outs → Within ws p o → cell ws o = p
  | [], [], [], [], [], _, _ => rfl
  | w :: ws, n :: ins, out :: outs, p :: ps, o :: os, hg, h => by
    obtain ⟨⟨g1, g2, g3, g4, g5⟩, g6⟩ := hg
    obtain ⟨⟨h1, h2⟩, h3⟩ := h
    show (o + w.padding).fdiv w.stride :: cell ws os = p :: ps
    rw [within_cell g6 h3, Int.fdiv_eq_ediv_of_nonneg _ (by omega)]
    congr 1
    apply Int.le_antisymm
    · exact Int.lt_add_one_iff.1 (Int.ediv_lt_of_lt_mul g1 h2)
    · exact Int.le_ediv_of_mul_le g1 h1
  | [], [], [], [], _ :: _, _, h => h.elim
  | [], [], [], _ :: _, [], _, h => h.elim
  | [], [], [], _ :: _, _ :: _, _, h => h.elim
  | _ :: _, _, _, [], [], _, h => h.elim
  | _ :: _, _, _, [], _ :: _, _, h => h.elim
  | _ :: _, _, _, _ :: _, [], _, h => h.elim
  | [], [], _ :: _, _, _, h, _ => h.elim
  | [], _ :: _, [], _, _, h, _ => h.elim
  | [], _ :: _, _ :: _, _, _, h, _ => h.elim
  | _ :: _, [], [], _, _, h, _ => h.elim
  | _ :: _, [], _ :: _, _, _, h, _ => h.elim
  | _ :: _, _ :: _, [], _, _, h, _ => h.elim

theorem position_inj {ns a b : List Int} (ha : inRange ns a = true) (hb : inRange ns b = true) (h : position ns a = position ns b) : a = b := by
  rw [← delinearize_position ha, ← delinearize_position hb, h]

/-! ## The padded operands -/

theorem sub_zero : ∀ (l : List Int), List.zipWith (· - ·) l (List.replicate l.length 0) = l
  | [] => rfl
  | i :: l => by simp only [List.length_cons, List.replicate_succ, List.zipWith_cons_cons, sub_zero l, Int.sub_zero]

theorem high_sizes : ∀ (L ins es : List Int), es.length = ins.length →
    List.zipWith (· + ·) (L ++ ins) (List.zipWith (· + ·) (List.replicate (L.length + ins.length) 0) (List.replicate L.length 0 ++ List.zipWith (· - ·) es ins)) = L ++ es
  | [], [], [], _ => rfl
  | [], n :: ins, e :: es, h => by
    have ih := high_sizes [] ins es (by simpa using h)
    simp only [List.length_nil, List.nil_append, Nat.zero_add, List.replicate_zero] at ih
    simp only [List.length_nil, List.nil_append, Nat.zero_add, List.length_cons, List.replicate_succ, List.replicate_zero, List.zipWith_cons_cons, ih, Int.zero_add]
    congr 1
    omega
  | n :: L, ins, es, h => by
    have ih := high_sizes L ins es h
    simp only [List.cons_append, List.length_cons, Nat.add_right_comm, List.replicate_succ, List.zipWith_cons_cons, ih, Int.add_zero]
  | [], [], _ :: _, h => by simp at h
  | [], _ :: _, [], h => by simp at h

theorem padded_read {F : Type} {x : Tensor F} {v : List Int → F} (hx : Pool.Holds x v) {L ins es b j : List Int} (hs : x.sizes = L ++ ins) (hl : es.length = ins.length) {z : F}
    (hb : inRange L b = true) (hj : inRange es j = true) {r : Nat} (hr : r = L.length + ins.length) :
    (Pool.pad x (List.replicate r 0) (List.replicate L.length 0 ++ List.zipWith (· - ·) es ins) z).get (b ++ j) = some (if inRange ins j then v (b ++ j) else z) := by
  have e : List.zipWith (· - ·) (b ++ j) (List.replicate r 0) = b ++ j := by
    have := sub_zero (b ++ j)
    rwa [List.length_append, inRange_length hb, inRange_length hj, hl, ← hr] at this
  rw [get_of_range]
  · simp only [Pool.pad, e, hs]
    by_cases q : inRange ins j = true
    · rw [if_pos ((inRange_app hb).2 q), if_pos q, hx _ (by rw [hs]; exact (inRange_app hb).2 q)]
    · rw [if_neg fun h => q ((inRange_app hb).1 h), if_neg q]
  · simp only [Pool.pad, hs, hr, high_sizes L ins es hl]
    exact (inRange_app hb).2 hj

theorem some_inj : ∀ {a b : List Int}, a.map some = b.map some → a = b
  | [], [], _ => rfl
  | x :: a, y :: b, h => by
    simp only [List.map_cons, List.cons.injEq, Option.some.injEq] at h
    rw [h.1, some_inj h.2]
  | [], _ :: _, h => by simp at h
  | _ :: _, [], h => by simp at h

theorem enlarge_read {x : Tensor E} {ind : Tensor Int} {vx : List Int → E} {vi : List Int → Int} (hvx : Pool.Holds x vx) (hvi : Pool.Holds ind vi) {lead ins outs : List Int}
    {ws : List Win} (hg : Good ws ins outs) (hx : x.sizes = lead ++ ins) (hi : ind.sizes = lead ++ ins) {ty resTy : List (Option Int)} (hr : resTy.length = lead.length + ws.length)
    (hty : ty.drop lead.length = ins.map some) {zero : E} :
    ∃ x' ind', enlarge lead.length ty resTy ins outs ws zero x ind = .ok (x', ind') ∧ ∀ b o, inRange lead b = true → inRange outs o = true →
      x'.get (b ++ cell ws o) = some (if inRange ins (cell ws o) then vx (b ++ cell ws o) else zero) ∧
      ind'.get (b ++ cell ws o) = some (if inRange ins (cell ws o) then vi (b ++ cell ws o) else -1) := by
  have hl := good_lengths hg
  have he : (List.zipWith expected outs ws).length = ins.length := by simp [hl.1, hl.2]
  unfold enlarge
  by_cases q : resTy.take lead.length ++ (List.zipWith expected outs ws).map some = ty
  · have e : List.zipWith expected outs ws = ins := by
      apply some_inj
      rw [← hty, ← q, List.drop_append_of_le_length (by simp [hr]), List.drop_eq_nil_of_le (by simp [hr])]
      rfl
    refine ⟨x, ind, by simp only [if_pos q], fun b o hb ho => ?_⟩
    have hc := cell_range hg ho
    rw [e] at hc
    have hc' := (inRange_app (ns := ins) hb).2 hc
    rw [get_of_range (by rw [hx]; exact hc'), get_of_range (by rw [hi]; exact hc'), hvx _ (by rw [hx]; exact hc'), hvi _ (by rw [hi]; exact hc'), if_pos hc, if_pos hc]
    exact ⟨rfl, rfl⟩
  · refine ⟨_, _, by simp only [if_neg q, high_nonneg hg, if_true]; rfl, fun b o hb ho => ?_⟩
    exact ⟨padded_read hvx hx he hb (cell_range hg ho) (by rw [hr, hl.1]), padded_read hvi hi he hb (cell_range hg ho) (by rw [hr, hl.1])⟩

/-! ## The generic and the slice -/

theorem shift_range : ∀ {ws : List Win} {ins outs o : List Int}, Good ws ins outs → inRange outs o = true →
    inRange (List.zipWith (fun o (w : Win) => o + w.padding) outs ws) (shift ws o) = true
  | [], [], [], o, _, h => by rw [inRange_nil h]; rfl
  | w :: ws, n :: ins, out :: outs, o, hg, h => by
    obtain ⟨i, o, rfl, h1, h2, h3⟩ := inRange_uncons h
    obtain ⟨⟨g1, g2, g3, g4, g5⟩, g6⟩ := hg
    exact inRange_cons.2 ⟨⟨show 0 ≤ i + w.padding by omega, show i + w.padding < out + w.padding by omega⟩, shift_range g6 h3⟩
  | [], [], _ :: _, _, h, _ => h.elim
  | [], _ :: _, [], _, h, _ => h.elim
  | [], _ :: _, _ :: _, _, h, _ => h.elim
  | _ :: _, [], [], _, h, _ => h.elim
  | _ :: _, [], _ :: _, _, h, _ => h.elim
  | _ :: _, _ :: _, [], _, h, _ => h.elim

theorem shift_zero : ∀ {ws : List Win} {o : List Int}, (ws.any fun w => decide (w.padding ≠ 0)) = false → o.length = ws.length → shift ws o = o
  | [], [], _, _ => rfl
  | w :: ws, i :: o, h, hl => by
    simp only [List.any_cons, Bool.or_eq_false_iff] at h
    have h0 : w.padding = 0 := by
      by_contra c
      rw [decide_eq_true c] at h
      exact absurd h.1 (by simp)
    show (i + w.padding) :: shift ws o = i :: o
    rw [shift_zero h.2 (by simpa using hl), h0, Int.add_zero]
  | [], _ :: _, _, hl => by simp at hl
  | _ :: _, [], _, hl => by simp at hl

theorem place_shift : ∀ {L b : List Int} {ws : List Win} {o : List Int}, b.length = L.length → o.length = ws.length →
    place (List.replicate L.length 0 ++ ws.map (·.padding)) (List.replicate (L.length + ws.length) 1) (b ++ o) = b ++ shift ws o
  | [], [], [], [], _, _ => rfl
  | [], [], w :: ws, i :: o, _, hl => by
    have ih := place_shift (L := []) (b := []) (ws := ws) (o := o) rfl (by simpa using hl)
    simp only [List.length_nil, List.replicate_zero, List.nil_append, Nat.zero_add] at ih
    simp only [List.length_nil, List.replicate_zero, List.nil_append, Nat.zero_add, List.map_cons, List.length_cons, List.replicate_succ, place, ih]
    show _ = (i + w.padding) :: shift ws o
    congr 1
    omega
  | n :: L, i :: b, ws, o, hb, hl => by
    have ih := place_shift (L := L) (b := b) (ws := ws) (o := o) (by simpa using hb) hl
    simp only [List.length_cons, List.replicate_succ, List.cons_append, Nat.add_right_comm, place, ih]
    congr 1
    omega
  | [], [], [], _ :: _, _, hl => by simp at hl
  | [], [], _ :: _, [], _, hl => by simp at hl
  | [], _ :: _, _, _, hb, _ => by simp at hb
  | _ :: _, [], _, _, hb, _ => by simp at hb

theorem createUnpool_spec {x : Operand E} {ind : Tensor Int} {vx : List Int → E} {vi : List Int → Int} (hvx : Pool.Holds x.tensor vx) (hvi : Pool.Holds ind vi)
    {lead ins outs : List Int} {ws : List Win} (h0 : ws ≠ []) (hg : Good ws ins outs) (hx : x.tensor.sizes = lead ++ ins) (hi : ind.sizes = lead ++ ins) {resTy : List (Option Int)}
    (hty : x.type.drop lead.length = ins.map some) {zero : E} (hr : TypeOf resTy (lead ++ outs)) (hw : InWindows ws lead ins outs vi) :
    ∃ t, createUnpool zero x ind ins outs ws resTy = .ok t ∧ IsUnpool t lead ins outs vx vi zero := by
  have hl := good_lengths hg
  have hrl : resTy.length = lead.length + ws.length := by rw [hr.1, List.length_append, hl.2]
  have hlead : resTy.length - ws.length = lead.length := by omega
  obtain ⟨x', ind', e, hread⟩ := enlarge_read (zero := zero) hvx hvi hg hx hi hrl hty
  have hsz : x.tensor.sizes.take lead.length = lead := by rw [hx]; simp
  have key : ∀ b o, inRange lead b = true → inRange outs o = true →
      (generic lead.length outs ws zero x' ind' (lead ++ List.zipWith (fun o (w : Win) => o + w.padding) outs ws)).elem (b ++ shift ws o) =
        some (if inRange ins (cell ws o) = true ∧ vi (b ++ cell ws o) = position outs o then vx (b ++ cell ws o) else zero) := by
    intro b o hb ho
    have hol : o.length = ws.length := by rw [inRange_length ho, hl.2]
    have hsrc : source lead.length ws (b ++ shift ws o) = b ++ cell ws o := by
      unfold source
      rw [← inRange_length hb, List.take_left, List.drop_left]
      rfl
    have hdrop : (b ++ shift ws o).drop lead.length = shift ws o := by rw [← inRange_length hb, List.drop_left]
    obtain ⟨r1, r2⟩ := hread b o hb ho
    simp only [generic, hsrc, hdrop, r1, r2, linear_none h0 hl.2 hol, pick]
    have hpos := (position_bound ho).1
    by_cases q : inRange ins (cell ws o) = true
    · simp only [q, if_true, true_and, Option.some.injEq]
    · simp only [q, Bool.false_eq_true, if_false, false_and, Option.some.injEq, ite_self]
  have final : ∀ (t : Tensor E), t.sizes = lead ++ outs →
      (∀ b o, inRange lead b = true → inRange outs o = true → t.elem (b ++ o) =
        some (if inRange ins (cell ws o) = true ∧ vi (b ++ cell ws o) = position outs o then vx (b ++ cell ws o) else zero)) → IsUnpool t lead ins outs vx vi zero := by
    intro t hs ht
    refine ⟨hs, fun b o hb ho => ⟨fun p hp hpo => ?_, fun hn => ?_⟩⟩
    · obtain ⟨o', ho', hv, hwn⟩ := hw b p hb hp
      have : o' = o := position_inj ho' ho (by rw [← hv, hpo])
      rw [this] at hwn
      have hc := within_cell hg hwn
      rw [ht b o hb ho, hc, if_pos ⟨hp, hpo⟩]
    · rw [ht b o hb ho, if_neg fun h => hn _ h.1 h.2]
  unfold createUnpool
  simp only [hlead, e, Outcome.bind, hsz]
  by_cases q : (ws.any fun w => decide (w.padding ≠ 0)) = true
  · simp only [if_pos q]
    refine ⟨_, if_pos (castOk_iff.2 hr), final _ rfl fun b o hb ho => ?_⟩
    have hol : o.length = ws.length := by rw [inRange_length ho, hl.2]
    simp only [extractSlice, hrl]
    rw [place_shift (inRange_length hb) hol, get_of_range]
    · exact key b o hb ho
    · exact (inRange_app hb).2 (shift_range hg ho)
  · have q' : (ws.any fun w => decide (w.padding ≠ 0)) = false := by simpa using q
    simp only [if_neg q]
    have hs : List.zipWith (fun o (w : Win) => o + w.padding) outs ws = outs := shift_zero q' hl.2
    have key' := key
    rw [hs] at key'
    refine ⟨_, if_pos ?_, final _ ?_ fun b o hb ho => ?_⟩
    · simp only [generic, hs]; exact castOk_iff.2 hr
    · simp only [generic, hs]
    · have hol : o.length = ws.length := by rw [inRange_length ho, hl.2]
      have := key' b o hb ho
      rw [shift_zero q' hol] at this
      rw [hs]
      exact this

/-! ## The patterns -/

theorem known_some : ∀ (ns : List Int), known (ns.map some) = some ns
  | [] => rfl
  | n :: ns => by simp only [List.map_cons, known, known_some ns, Option.map_some]

theorem known_none : ∀ {ty : List (Option Int)}, none ∈ ty → known ty = none
  | none :: _, _ => rfl
  | some n :: ty, h => by
    rw [known, known_none (by simpa using h)]
    rfl

theorem known_eq : ∀ {ty : List (Option Int)} {ns : List Int}, known ty = some ns → ty = ns.map some
  | [], ns, h => by
    simp only [known, Option.some.injEq] at h
    rw [← h]; rfl
  | some n :: ty, ns, h => by
    simp only [known, Option.map_eq_some_iff] at h
    obtain ⟨ms, h1, rfl⟩ := h
    rw [known_eq h1]
    rfl
  | none :: ty, ns, h => by simp [known] at h

theorem overlap_iff : ∀ {ws : List Win} {ins outs : List Int}, overlap ins outs ws = false ↔ Covers ws ins outs
  | w :: ws, n :: ins, out :: outs => by
    have e : (n - 1) * w.stride = n * w.stride - w.stride := by rw [Int.sub_mul, Int.one_mul]
    simp only [overlap, Bool.or_eq_false_iff, overlap_iff (ws := ws), Covers, kernelSize, decide_eq_false_iff_not, e]
    refine and_congr_left fun _ => ?_
    omega
  | [], _, _ => by cases ‹List Int› <;> simp [overlap, Covers]
  | _ :: _, [], _ => by simp [overlap, Covers]
  | _ :: _, _ :: _, [] => by simp [overlap, Covers]

/-! ## Windows of poolings -/

theorem window_within : ∀ {ws : List Win} {as : List Pool.Axis} {outs p o : List Int}, Apart ws as → outs.length = as.length → p.length = as.length → o ∈ Pool.window outs as p →
    inRange outs o = true ∧ Within ws p o
  | [], [], [], [], o, _, _, _, h => by
    simp only [Pool.window, List.mem_singleton] at h
    subst h
    exact ⟨rfl, trivial⟩
  | w :: ws, a :: as, out :: outs, p :: ps, o, ha, h1, h2, h => by
    simp only [Pool.window, List.mem_flatMap, List.mem_map] at h
    obtain ⟨i, hi, o', ho', rfl⟩ := h
    obtain ⟨⟨a1, a2, a3, a4⟩, a5⟩ := ha
    obtain ⟨r1, r2⟩ := window_within a5 (by simpa using h1) (by simpa using h2) ho'
    simp only [Pool.seen, List.mem_filter, List.mem_map, List.mem_range, decide_eq_true_eq] at hi
    obtain ⟨⟨k, hk, rfl⟩, hr⟩ := hi
    refine ⟨inRange_cons.2 ⟨hr, r1⟩, ⟨?_, ?_⟩, r2⟩
    · have : (0 : Int) ≤ (k : Int) * a.dilation := Int.mul_nonneg (by omega) (by omega)
      rw [a1, a2]; omega
    · have hk' : (k : Int) ≤ a.kernel - 1 := by omega
      have := mul_le_mul_of_nonneg_right hk' (le_of_lt a3)
      rw [a1, a2, Int.add_mul]
      rw [Int.mul_comm] at a4
      omega
  | [], _ :: _, _, _, _, h, _, _, _ => h.elim
  | _ :: _, [], _, _, _, h, _, _, _ => h.elim
  | [], [], _ :: _, _, _, _, h, _, _ => by simp at h
  | [], [], [], _ :: _, _, _, _, h, _ => by simp at h
  | _ :: _, _ :: _, [], _, _, _, h, _, _ => by simp at h
  | _ :: _, _ :: _, _ :: _, [], _, _, _, h, _ => by simp at h

theorem pooled_windows {ws : List Win} {as : List Pool.Axis} {lead ins outs : List Int} {vi : List Int → Int} (ha : Apart ws as) (h1 : outs.length = as.length)
    (h2 : ins.length = as.length) (h : Pooled as lead ins outs vi) : InWindows ws lead ins outs vi := by
  intro b p hb hp
  obtain ⟨o, ho, hv⟩ := h b p hb hp
  obtain ⟨r1, r2⟩ := window_within ha h1 (by rw [inRange_length hp, h2]) ho
  exact ⟨o, r1, hv, r2⟩

end Verif.Unpool
