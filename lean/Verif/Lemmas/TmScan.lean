import Verif.Lemmas.TmLoops
import Verif.Lemmas.TmSort
import Verif.Spec.TmAten

namespace Verif.Tm

variable {E : Type}

theorem upTo_succ (f : E → E → E) (g : Nat → E) (k : Nat) : upTo f g (k + 1) = f (upTo f g k) (g (k + 1)) := by
  simp [upTo, List.range_succ]

theorem before_succ (f : E → E → E) (init : E) (g : Nat → E) (k : Nat) : before f init g (k + 1) = f (before f init g k) (g k) := by
  simp [before, List.range_succ]

/-- The results at a place. -/
def scanAt (f : E → E → E) (inclusive : Bool) (init : E) (g : Nat → E) (k : Nat) : E :=
  if inclusive then upTo f g k else before f init g k

def upd (g : Nat → E) (k : Nat) (v : E) : Nat → E := fun j => if j = k then v else g j

/-- What happens on a lane. -/
def scanLane (f : E → E → E) (inclusive : Bool) (g : Nat → E) (k : Nat) (t : (Nat → E) × E) : (Nat → E) × E :=
  if k = 0 then (upd t.1 0 (if inclusive then g 0 else t.2), t.2)
  else
    let v := f (t.1 (k - 1)) (if inclusive then g k else g (k - 1))
    (upd t.1 k v, v)

/-- The elements of a lane. -/
def laneFn (b : Buf E) (d : Nat) (o : List Nat) : Nat → E := fun k => b (o.insertIdx d k)

theorem laneFn_store (b : Buf E) (d : Nat) (o o' : List Nat) (k : Nat) (v : E) (h : d ≤ o.length) (h' : d ≤ o'.length) :
    laneFn (b.store (o'.insertIdx d k) v) d o = if o' = o then upd (laneFn b d o) k v else laneFn b d o := by
  funext j
  unfold laneFn Buf.store
  by_cases e : o' = o
  · subst e
    rw [if_pos rfl]
    unfold upd
    by_cases e2 : j = k
    · subst e2; simp
    · rw [if_neg (fun h => e2 (insert_inj h' h' h).2), if_neg e2]
  · rw [if_neg e, if_neg (fun h2 => e (insert_inj h h' h2).1.symm)]

theorem ivs_insert {ivs : List Nat} {d : Nat} (h : d < ivs.length) : ivs = (ivs.eraseIdx d).insertIdx d (ivs[d]?.getD 0) := by
  have := set_eq_insert (ivs[d]?.getD 0) h
  rw [← this]
  rw [List.getElem?_eq_getElem h, Option.getD_some, List.set_getElem_self]

theorem scanBody_lane (f : E → E → E) (inclusive : Bool) (d : Nat) (input : Buf E) (ivs : List Nat) (s : Buf E × Buf E)
    (hd : d < ivs.length) (o : List Nat) (ho : d ≤ o.length) :
    (laneFn (scanBody f inclusive d input ivs s).1 d o, (scanBody f inclusive d input ivs s).2 o)
      = if ivs.eraseIdx d = o then scanLane f inclusive (laneFn input d o) (ivs[d]?.getD 0) (laneFn s.1 d o, s.2 o)
        else (laneFn s.1 d o, s.2 o) := by
  have hl : d ≤ (ivs.eraseIdx d).length := by rw [List.length_eraseIdx_of_lt hd]; omega
  have hi := ivs_insert hd
  have hset := fun k => set_eq_insert (ivs := ivs) (d := d) k hd
  generalize ho' : ivs.eraseIdx d = o' at *
  generalize hk : ivs[d]?.getD 0 = k at *
  have hin : input ivs = laneFn input d o' k := by rw [hi]; rfl
  have hst : ∀ (b : Buf E) v, laneFn (b.store ivs v) d o = if o' = o then upd (laneFn b d o) k v else laneFn b d o := by
    intro b v; rw [hi]; exact laneFn_store b d o o' k v ho hl
  unfold scanBody
  simp only [ho', hk]
  by_cases h0 : k = 0
  · rw [if_pos h0, hst]
    by_cases e : o' = o
    · subst e
      rw [if_pos rfl, if_pos rfl, scanLane, if_pos h0, hin, h0]
    · rw [if_neg e, if_neg e]
  · rw [if_neg h0]
    simp only [hset]
    rw [hst]
    by_cases e : o' = o
    · subst e
      rw [if_pos rfl, if_pos rfl, scanLane, if_neg h0, hin]
      simp only [Buf.store, if_true]
      rfl
    · rw [if_neg e, if_neg e]
      simp only [Buf.store, if_neg (Ne.symm e)]

theorem scanLanes (f : E → E → E) (inclusive : Bool) (g : Nat → E) (t : (Nat → E) × E) : ∀ n : Nat,
    (List.range n).foldl (fun t k => scanLane f inclusive g k t) t
      = (fun k => if k < n then scanAt f inclusive t.2 g k else t.1 k, if n ≤ 1 then t.2 else scanAt f inclusive t.2 g (n - 1))
  | 0 => by simp
  | n + 1 => by
    rw [List.range_succ, List.foldl_append, scanLanes f inclusive g t n, List.foldl_cons, List.foldl_nil, scanLane]
    by_cases h0 : n = 0
    · subst h0
      rw [if_pos rfl]
      refine Prod.ext ?_ ?_
      · funext k
        by_cases hk : k = 0
        · subst hk
          cases inclusive <;> simp [upd, scanAt, upTo, before]
        · have h1 : ¬ k < 0 + 1 := by omega
          simp only [upd, if_neg hk, if_neg h1, if_neg (Nat.not_lt_zero k)]
      · simp
    · rw [if_neg h0]
      have hv : f (if n - 1 < n then scanAt f inclusive t.2 g (n - 1) else t.1 (n - 1)) (if inclusive then g n else g (n - 1))
          = scanAt f inclusive t.2 g n := by
        rw [if_pos (by omega)]
        obtain ⟨m, rfl⟩ : ∃ m, n = m + 1 := ⟨n - 1, by omega⟩
        rw [Nat.add_sub_cancel]
        cases inclusive
        · simp only [scanAt, if_false, Bool.false_eq_true, before_succ]
        · simp only [scanAt, if_true, upTo_succ]
      simp only [hv]
      refine Prod.ext ?_ ?_
      · funext k
        by_cases hk : k = n
        · subst hk; simp [upd]
        · simp only [upd, if_neg hk]
          by_cases h1 : k < n
          · rw [if_pos h1, if_pos (by omega)]
          · rw [if_neg h1, if_neg (by omega)]
      · show scanAt f inclusive t.2 g n = _
        rw [if_neg (by omega), Nat.add_sub_cancel]

theorem scan_lane (f : E → E → E) (inclusive : Bool) (d n : Nat) (sizes : List Nat) (hn : sizes[d]? = some n) (input output acc : Buf E)
    (o : List Nat) (ho : InBox (sizes.eraseIdx d) o) :
    (laneFn (scan f inclusive d sizes input output acc).1 d o, (scan f inclusive d sizes input output acc).2 o)
      = (fun k => if k < n then scanAt f inclusive (acc o) (laneFn input d o) k else laneFn output d o k,
         if n ≤ 1 then acc o else scanAt f inclusive (acc o) (laneFn input d o) (n - 1)) := by
  have := lower_lane (fun (s : Buf E × Buf E) o => (laneFn s.1 d o, s.2 o)) (scanBody f inclusive d input)
    (fun o k t => scanLane f inclusive (laneFn input d o) k t) hn
    (fun ivs s o hivs ho => scanBody_lane f inclusive d input ivs s (hivs.lt hn) o (ho.le hn)) (output, acc) o ho
  unfold scan
  rw [this, scanLanes]

theorem scan_frame (f : E → E → E) (inclusive : Bool) (d n : Nat) (sizes : List Nat) (hn : sizes[d]? = some n)
    (input output acc : Buf E) :
    (∀ idx, ¬ InBox sizes idx → (scan f inclusive d sizes input output acc).1 idx = output idx) ∧
    (∀ o, ¬ InBox (sizes.eraseIdx d) o → (scan f inclusive d sizes input output acc).2 o = acc o) := by
  unfold scan
  rw [lower_box]
  have gen : ∀ (L : List (List Nat)) (s : Buf E × Buf E), (∀ j ∈ L, InBox sizes j) →
      (∀ idx, ¬ InBox sizes idx → (L.foldl (fun s j => scanBody f inclusive d input j s) s).1 idx = s.1 idx) ∧
      (∀ o, ¬ InBox (sizes.eraseIdx d) o → (L.foldl (fun s j => scanBody f inclusive d input j s) s).2 o = s.2 o) := by
    intro L
    induction L with
    | nil => intro s _; exact ⟨fun _ _ => rfl, fun _ _ => rfl⟩
    | cons j L ih =>
      intro s hL
      obtain ⟨h1, h2⟩ := ih (scanBody f inclusive d input j s) (fun k hk => hL k (List.mem_cons_of_mem _ hk))
      have hj := hL j (by simp)
      rw [List.foldl_cons]
      refine ⟨fun idx hi => ?_, fun o ho => ?_⟩
      · rw [h1 idx hi]
        have : idx ≠ j := fun e => hi (e ▸ hj)
        unfold scanBody
        dsimp only
        split <;> simp only [Buf.store, if_neg this]
      · rw [h2 o ho]
        have : o ≠ j.eraseIdx d := fun e => ho (e ▸ hj.erase d)
        unfold scanBody
        dsimp only
        split
        · rfl
        · simp only [Buf.store, if_neg this]
  exact gen _ _ (fun j hj => mem_box.1 hj)

end Verif.Tm
