import Verif.Lemmas.Linalg
import Verif.Spec.LinPad

namespace Verif.Lin

variable {E : Type}

theorem unplace_ones : ∀ (offs ns is : List Int), offs.length = is.length → ns.length = is.length →
    unplace offs ns (List.replicate is.length 1) is =
      if inRange ns (List.zipWith (· - ·) is offs) then some (List.zipWith (· - ·) is offs) else none := by
  intro offs
  induction offs with
  | nil =>
    intro ns is h1 h2
    have h := List.length_eq_zero_iff.1 h1.symm
    subst h
    have h := List.length_eq_zero_iff.1 h2
    subst h
    rfl
  | cons o os ih =>
    intro ns is h1 h2
    cases is with
    | nil => cases h1
    | cons i is =>
      cases ns with
      | nil => cases h2
      | cons n ns =>
        simp only [List.length_cons, Nat.add_right_cancel_iff] at h1 h2
        simp only [List.length_cons, List.replicate_succ, unplace, Int.emod_one, Int.ediv_one, true_and, ih ns is h1 h2, List.zipWith_cons_cons, inRange]
        by_cases h : 0 ≤ i - o ∧ i - o < n
        · simp only [if_pos h, decide_eq_true h, Bool.true_and]
          by_cases h' : inRange ns (List.zipWith (· - ·) is os) = true
          · simp only [if_pos h']
          · simp only [if_neg h']
        · simp only [if_neg h, decide_eq_false h, Bool.false_and, Bool.false_eq_true, if_false]

theorem place_ones : ∀ (offs is : List Int), offs.length = is.length →
    place offs (List.replicate is.length 1) is = List.zipWith (fun i o => o + i) is offs := by
  intro offs
  induction offs with
  | nil =>
    intro is h
    have h := List.length_eq_zero_iff.1 h.symm
    subst h
    rfl
  | cons o os ih =>
    intro is h
    cases is with
    | nil => cases h
    | cons i is =>
      simp only [List.length_cons, Nat.add_right_cancel_iff] at h
      simp only [List.length_cons, List.replicate_succ, place, Int.mul_one, List.zipWith_cons_cons, ih is h]

/-- A list given position by position. -/
theorem zip_set1 (f : Int → Int → Int) (hf : ∀ i, f i 0 = i) (is : List Int) (d : Nat) (o : Int) (hd : d < is.length) :
    List.zipWith f is ((List.replicate is.length 0).set d o) = is.set d (f (is.getD d 0) o) := by
  apply List.ext_getElem?
  intro k
  rw [List.getElem?_zipWith, List.getElem?_set, List.getElem?_set]
  by_cases hk : d = k
  · subst hk
    rw [if_pos rfl, if_pos (by simpa using hd), if_pos rfl, if_pos hd, getElem?_of_lt hd]
  · rw [if_neg hk, if_neg hk]
    by_cases h : k < is.length
    · rw [List.getElem?_replicate, if_pos h, List.getElem?_eq_getElem h]
      simp [hf]
    · rw [List.getElem?_eq_none (by omega)]

theorem zip_set2 (f : Int → Int → Int) (hf : ∀ i, f i 0 = i) (is : List Int) (d e : Nat) (hde : d ≠ e) (o p : Int) (hd : d < is.length) (he : e < is.length) :
    List.zipWith f is (((List.replicate is.length 0).set d o).set e p) = (is.set d (f (is.getD d 0) o)).set e (f (is.getD e 0) p) := by
  apply List.ext_getElem?
  intro k
  rw [List.getElem?_zipWith, List.getElem?_set, List.getElem?_set, List.getElem?_set, List.getElem?_set]
  by_cases hk : e = k
  · subst hk
    rw [if_pos rfl, if_pos (by simpa using he), if_pos rfl, if_pos (by simpa using he), getElem?_of_lt he]
  · rw [if_neg hk, if_neg hk]
    by_cases hk : d = k
    · subst hk
      rw [if_pos rfl, if_pos (by simpa using hd), if_pos rfl, if_pos hd, getElem?_of_lt hd]
    · rw [if_neg hk, if_neg hk]
      by_cases h : k < is.length
      · rw [List.getElem?_replicate, if_pos h, List.getElem?_eq_getElem h]
        simp [hf]
      · rw [List.getElem?_eq_none (by omega)]

theorem inRange_set1 {ns is : List Int} {d : Nat} {m : Int} (h : inRange (ns.set d m) is = true) (hd : d < ns.length) (w p : Int) :
    inRange (ns.set d w) (is.set d p) = true ↔ 0 ≤ p ∧ p < w := by
  have hl : is.length = ns.length := by simpa using inRange_length h
  constructor
  · intro h'
    have := inRange_getD h' (d := d) (by simpa using hd)
    rwa [getD_set_self (by omega), getD_set_self hd] at this
  · intro h'
    have := inRange_set_both h w p h' (d := d)
    rwa [List.set_set] at this

theorem getD_set_ne {l : List Int} {d e : Nat} {x : Int} (h : d ≠ e) : (l.set d x).getD e 0 = l.getD e 0 := by
  rw [List.getD_eq_getElem?_getD, List.getElem?_set, if_neg h, List.getD_eq_getElem?_getD]

theorem set_getD_self (l : List Int) (d : Nat) : l.set d (l.getD d 0) = l := by
  apply List.ext_getElem?
  intro k
  rw [List.getElem?_set]
  by_cases h : d = k
  · subst h
    by_cases hd : d < l.length
    · rw [if_pos rfl, if_pos hd, getElem?_of_lt hd]
    · rw [if_pos rfl, if_neg hd, List.getElem?_eq_none (by omega)]
  · rw [if_neg h]

theorem inRange_set2 {ns is : List Int} {d e : Nat} {m l : Int} (h : inRange ((ns.set d m).set e l) is = true) (hde : d ≠ e) (hd : d < ns.length)
    (he : e < ns.length) (w p u q : Int) :
    inRange ((ns.set d w).set e u) ((is.set d p).set e q) = true ↔ (0 ≤ p ∧ p < w) ∧ (0 ≤ q ∧ q < u) := by
  have hl : is.length = ns.length := by simpa using inRange_length h
  constructor
  · intro h'
    have h1 := inRange_getD h' (d := d) (by simpa using hd)
    have h2 := inRange_getD h' (d := e) (by simpa using he)
    rw [getD_set_ne (Ne.symm hde), getD_set_ne (Ne.symm hde), getD_set_self (by omega), getD_set_self hd] at h1
    rw [getD_set_self (by simpa [hl] using he), getD_set_self (by simpa using he)] at h2
    exact ⟨h1, h2⟩
  · rintro ⟨h1, h2⟩
    rw [List.set_comm _ _ hde] at h
    have h3 := inRange_set_both h w p h1 (d := d)
    rw [List.set_set, List.set_comm _ _ (Ne.symm hde)] at h3
    have h4 := inRange_set_both h3 u q h2 (d := e)
    rwa [List.set_set] at h4

/-! ## Tiles -/

/-- The tile covers the position. -/
def Part.covers (p : Part) (i : Int) : Prop := 0 ≤ i - p.insert ∧ i - p.insert < p.width

/-- Where the tile has its element from. -/
def Part.source (p : Part) (i : Int) : Int := p.extract + p.reflect (i - p.insert)

instance (p : Part) (i : Int) : Decidable (p.covers i) := inferInstanceAs (Decidable (_ ∧ _))

/-- The padding of a tile is its width. -/
def Part.Ok (p : Part) : Prop := ∀ w, p.pad = some w → w = p.width

theorem Part.reflect_range {p : Part} (h : p.Ok) {i : Int} (hi : 0 ≤ i ∧ i < p.width) : 0 ≤ p.reflect i ∧ p.reflect i < p.width := by
  unfold Part.reflect
  cases hp : p.pad with
  | none => exact hi
  | some w => have := h w hp; dsimp only; omega

theorem tile1_elem (x res : Tensor E) (p : Part) (hp : p.Ok) (m : Int) (hr : 0 < x.sizes.length) (hs : res.sizes = x.sizes.set (x.sizes.length - 1) m)
    (idx : List Int) (hi : inRange res.sizes idx = true) :
    (tile1 x p res).elem idx = if p.covers (idx.getD (x.sizes.length - 1) 0) then
      x.get (idx.set (x.sizes.length - 1) (p.source (idx.getD (x.sizes.length - 1) 0))) else res.get idx := by
  rw [hs] at hi
  have hl : idx.length = x.sizes.length := by simpa using inRange_length hi
  obtain ⟨hd, hhd⟩ : ∃ hd, hd = x.sizes.length - 1 := ⟨_, rfl⟩
  have hh : hd < idx.length := by omega
  simp only [tile1, ← hhd] at *
  have hu : unplace ((List.replicate x.sizes.length 0).set hd p.insert) (x.sizes.set hd p.width)
      (List.replicate x.sizes.length 1) idx = if p.covers (idx.getD hd 0) then
        some (idx.set hd (idx.getD hd 0 - p.insert)) else none := by
    rw [← hl, unplace_ones _ _ _ (by simp) (by simp [hl]), zip_set1 _ (by simp) _ _ _ (by omega)]
    by_cases hc : p.covers (idx.getD hd 0)
    · rw [if_pos hc, if_pos ((inRange_set1 hi (by omega) _ _).2 hc)]
    · rw [if_neg hc, if_neg fun h => hc ((inRange_set1 hi (by omega) _ _).1 h)]
  simp only [insertSlice, hu]
  by_cases hc : p.covers (idx.getD hd 0)
  · simp only [if_pos hc]
    have hin := (inRange_set1 hi (by omega) p.width _).2 hc
    have hplace : ∀ j, place ((List.replicate x.sizes.length 0).set hd p.extract) (List.replicate x.sizes.length 1)
        (idx.set hd j) = idx.set hd (p.extract + j) := by
      intro j
      have hlj : (idx.set hd j).length = x.sizes.length := by simpa using hl
      rw [← hlj, place_ones _ _ (by simp), zip_set1 _ (by simp) _ _ _ (by simpa using hh), List.set_set, getD_set_self hh]
    have hrefl := Part.reflect_range hp hc
    cases hpad : p.pad with
    | some w =>
      simp only [Option.isSome_some, if_true, Tensor.get, hin, List.set_set, getD_set_self hh, extractSlice,
        (inRange_set1 hi (by omega) p.width _).2 hrefl, hplace]
      rfl
    | none =>
      simp only [Option.isSome_none, Bool.false_eq_true, if_false, Tensor.get, extractSlice, hin, if_true, hplace]
      simp only [Part.source, Part.reflect, hpad]
  · simp only [if_neg hc]

theorem tile2_elem (x res : Tensor E) (v h : Part) (hv : v.Ok) (hh : h.Ok) (m l : Int) (hr : 2 ≤ x.sizes.length)
    (hs : res.sizes = (x.sizes.set (x.sizes.length - 1) l).set (x.sizes.length - 2) m) (idx : List Int) (hi : inRange res.sizes idx = true) :
    (tile2 x v h res).elem idx = if h.covers (idx.getD (x.sizes.length - 1) 0) ∧ v.covers (idx.getD (x.sizes.length - 2) 0) then
      x.get ((idx.set (x.sizes.length - 1) (h.source (idx.getD (x.sizes.length - 1) 0))).set (x.sizes.length - 2)
        (v.source (idx.getD (x.sizes.length - 2) 0))) else res.get idx := by
  rw [hs] at hi
  have hl : idx.length = x.sizes.length := by simpa using inRange_length hi
  obtain ⟨hd, hhd⟩ : ∃ hd, hd = x.sizes.length - 1 := ⟨_, rfl⟩
  obtain ⟨vd, hvd⟩ : ∃ vd, vd = x.sizes.length - 2 := ⟨_, rfl⟩
  have hne : hd ≠ vd := by omega
  have h1 : hd < idx.length := by omega
  have h2 : vd < idx.length := by omega
  simp only [tile2, ← hhd, ← hvd] at *
  have hu : unplace (((List.replicate x.sizes.length 0).set hd h.insert).set vd v.insert) ((x.sizes.set hd h.width).set vd v.width)
      (List.replicate x.sizes.length 1) idx = if h.covers (idx.getD hd 0) ∧ v.covers (idx.getD vd 0) then
        some ((idx.set hd (idx.getD hd 0 - h.insert)).set vd (idx.getD vd 0 - v.insert)) else none := by
    rw [← hl, unplace_ones _ _ _ (by simp) (by simp [hl]), zip_set2 _ (by simp) _ _ _ hne _ _ (by omega) (by omega)]
    by_cases hc : h.covers (idx.getD hd 0) ∧ v.covers (idx.getD vd 0)
    · rw [if_pos hc, if_pos ((inRange_set2 hi hne (by omega) (by omega) _ _ _ _).2 hc)]
    · rw [if_neg hc, if_neg fun h => hc ((inRange_set2 hi hne (by omega) (by omega) _ _ _ _).1 h)]
  simp only [insertSlice, hu]
  by_cases hc : h.covers (idx.getD hd 0) ∧ v.covers (idx.getD vd 0)
  · simp only [if_pos hc]
    have hin := (inRange_set2 hi hne (by omega) (by omega) h.width _ v.width _).2 hc
    have hplace : ∀ j k, place (((List.replicate x.sizes.length 0).set hd h.extract).set vd v.extract) (List.replicate x.sizes.length 1)
        ((idx.set hd j).set vd k) = (idx.set hd (h.extract + j)).set vd (v.extract + k) := by
      intro j k
      have hlj : ((idx.set hd j).set vd k).length = x.sizes.length := by simpa using hl
      rw [← hlj, place_ones _ _ (by simp), zip_set2 _ (by simp) _ _ _ hne _ _ (by simp; omega) (by simp; omega),
        getD_set_self (by simpa using h2), getD_set_ne (Ne.symm hne), getD_set_self h1, List.set_comm _ _ (Ne.symm hne), List.set_set, List.set_set]
    have hrefl := (inRange_set2 hi hne (by omega) (by omega) h.width _ v.width _).2
      ⟨Part.reflect_range hh hc.1, Part.reflect_range hv hc.2⟩
    have hset : ∀ j k j' k' : Int, (((idx.set hd j).set vd k).set hd j').set vd k' = (idx.set hd j').set vd k' := by
      intro j k j' k'
      rw [List.set_comm _ _ (Ne.symm hne), List.set_set, List.set_set]
    have e1 : ∀ j k : Int, ((idx.set hd j).set vd k).getD hd 0 = j := by
      intro j k; rw [getD_set_ne (Ne.symm hne), getD_set_self h1]
    have e2 : ∀ j k : Int, ((idx.set hd j).set vd k).getD vd 0 = k := by
      intro j k; rw [getD_set_self (by simpa using h2)]
    simp only [Tensor.get, hin, if_true, hset, e1, e2, extractSlice, hrefl, hplace]
    rfl
  · simp only [if_neg hc]

theorem tile1_sizes (x res : Tensor E) (p : Part) : (tile1 x p res).sizes = res.sizes := rfl

theorem tile2_sizes (x res : Tensor E) (v h : Part) : (tile2 x v h res).sizes = res.sizes := rfl

theorem get_of_range {t : Tensor E} {idx : List Int} (h : inRange t.sizes idx = true) : t.get idx = t.elem idx := if_pos h

/-- Many tiles: if those that cover an index agree on its element, this is the element. -/
theorem fold_tiles (x : Tensor E) (m l : Int) (hr : 2 ≤ x.sizes.length) (idx : List Int) (val : Option E) :
    ∀ (ts : List (Part × Part)) (res : Tensor E), (∀ t ∈ ts, t.1.Ok ∧ t.2.Ok) →
      res.sizes = (x.sizes.set (x.sizes.length - 1) l).set (x.sizes.length - 2) m → inRange res.sizes idx = true →
      (∀ t ∈ ts, t.2.covers (idx.getD (x.sizes.length - 1) 0) → t.1.covers (idx.getD (x.sizes.length - 2) 0) →
        x.get ((idx.set (x.sizes.length - 1) (t.2.source (idx.getD (x.sizes.length - 1) 0))).set (x.sizes.length - 2)
          (t.1.source (idx.getD (x.sizes.length - 2) 0))) = val) →
      ((∃ t ∈ ts, t.2.covers (idx.getD (x.sizes.length - 1) 0) ∧ t.1.covers (idx.getD (x.sizes.length - 2) 0)) ∨ res.elem idx = val) →
      (ts.foldl (fun result t => tile2 x t.1 t.2 result) res).sizes = res.sizes ∧
      (ts.foldl (fun result t => tile2 x t.1 t.2 result) res).elem idx = val := by
  intro ts
  induction ts with
  | nil =>
    intro res _ _ _ _ h
    rcases h with ⟨t, ht, _⟩ | h
    · cases ht
    · exact ⟨rfl, h⟩
  | cons t ts ih =>
    intro res hok hs hi hval hex
    have he := tile2_elem x res t.1 t.2 (hok t (by simp)).1 (hok t (by simp)).2 m l hr hs idx hi
    rw [List.foldl_cons]
    refine ih (tile2 x t.1 t.2 res) (fun u hu => hok u (List.mem_cons_of_mem _ hu)) hs hi (fun u hu => hval u (List.mem_cons_of_mem _ hu)) ?_
    by_cases hc : t.2.covers (idx.getD (x.sizes.length - 1) 0) ∧ t.1.covers (idx.getD (x.sizes.length - 2) 0)
    · right
      rw [he, if_pos hc]
      exact hval t (by simp) hc.1 hc.2
    · rw [if_neg hc, get_of_range hi] at he
      rcases hex with ⟨u, hu, hcu⟩ | hex
      · left
        rcases List.mem_cons.1 hu with rfl | hu
        · exact absurd hcu hc
        · exact ⟨u, hu, hcu⟩
      · right
        rw [he, hex]

theorem leftPart_ok (l : Int) : (leftPart l).Ok := by rintro w ⟨⟩; rfl

theorem rightPart_ok (n l r : Int) : (rightPart n l r).Ok := by rintro w ⟨⟩; rfl

theorem centerPart_ok (n l : Int) : (centerPart n l).Ok := by rintro w ⟨⟩

/-- Every tile that covers a position has it from the mirrored position. -/
theorem part_source {n left right i : Int} (hn : 0 ≤ n) (hl : 0 ≤ left) (p : Part)
    (hp : p ∈ [leftPart left, rightPart n left right, centerPart n left]) (hc : p.covers i) : p.source i = mirror n left i := by
  simp only [List.mem_cons, List.not_mem_nil, or_false] at hp
  rcases hp with rfl | rfl | rfl
  · simp only [Part.covers, leftPart, Part.source, Part.reflect, mirror] at hc ⊢
    rw [if_pos (by omega)]
    omega
  · simp only [Part.covers, rightPart, Part.source, Part.reflect, mirror] at hc ⊢
    by_cases h : i < left
    · omega
    · rw [if_neg h, if_neg (by omega)]
      omega
  · simp only [Part.covers, centerPart, Part.source, Part.reflect, mirror] at hc ⊢
    rw [if_neg (by omega), if_pos (by omega)]
    omega

/-- Every position is covered by a tile that is made. -/
theorem part_covers {n left right i : Int} (hl : 0 ≤ left) (h0 : 0 ≤ i) (hi : i < n + left + right) :
    ∃ p ∈ [leftPart left, rightPart n left right, centerPart n left], p.create = true ∧ p.covers i := by
  by_cases h1 : i < left
  · exact ⟨leftPart left, by simp, decide_eq_true (show left > 0 by omega), by simp only [Part.covers, leftPart]; omega⟩
  · by_cases h2 : i < n + left
    · exact ⟨centerPart n left, by simp, rfl, by simp only [Part.covers, centerPart]; omega⟩
    · exact ⟨rightPart n left right, by simp, decide_eq_true (show right > 0 by omega), by simp only [Part.covers, rightPart]; omega⟩

theorem mirror_range {n left right i : Int} (hl : 0 ≤ left) (hl' : left < n) (hr' : right < n) (h0 : 0 ≤ i) (hi : i < n + left + right) :
    0 ≤ mirror n left i ∧ mirror n left i < n := by
  unfold mirror
  by_cases h1 : i < left
  · rw [if_pos h1]; omega
  · rw [if_neg h1]
    by_cases h2 : i < left + n
    · rw [if_pos h2]; omega
    · rw [if_neg h2]; omega

theorem mem_tiles {vs hs : List Part} {t : Part × Part} : t ∈ tiles vs hs ↔ t.1 ∈ vs ∧ t.2 ∈ hs ∧ t.2.create = true ∧ t.1.create = true := by
  obtain ⟨a, b⟩ := t
  simp only [tiles, List.mem_flatMap, List.mem_filter, List.mem_map, Prod.mk.injEq, Bool.and_eq_true]
  constructor
  · rintro ⟨v, hv, ⟨h, hh, rfl, rfl⟩, h1, h2⟩
    exact ⟨hv, hh, h1, h2⟩
  · rintro ⟨hv, hh, h1, h2⟩
    exact ⟨a, hv, ⟨b, hh, rfl, rfl⟩, h1, h2⟩

theorem parts_ok {n left right : Int} {p : Part} (hp : p ∈ [leftPart left, rightPart n left right, centerPart n left]) : p.Ok := by
  simp only [List.mem_cons, List.not_mem_nil, or_false] at hp
  rcases hp with rfl | rfl | rfl
  · exact leftPart_ok _
  · exact rightPart_ok _ _ _
  · exact centerPart_ok _ _

theorem padded_ok {x : Tensor E} (hx : x.Ok) {d : Nat} {left right : Int} (hd : d < x.sizes.length) (hl : 0 ≤ left) (hr : 0 ≤ right)
    (hl' : left < x.sizes.getD d 0) (hr' : right < x.sizes.getD d 0) : (padded x d left right).Ok := by
  refine ⟨fun n hn => ?_, fun idx hi => ?_⟩
  · rcases List.mem_or_eq_of_mem_set hn with h | rfl
    · exact hx.1 n h
    · omega
  · have hb := inRange_getD (ns := x.sizes.set d (left + x.sizes.getD d 0 + right)) hi (d := d) (by simpa using hd)
    rw [getD_set_self hd] at hb
    exact hx.2 _ (inRange_set hi _ (mirror_range hl hl' hr' hb.1 (by omega)))

end Verif.Lin
