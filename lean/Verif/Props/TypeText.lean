import Verif.Model.TypeText
import Verif.Spec.Dtypes

/-!
# C19: tensor type text is unambiguous

The textual `!torch.vtensor<[...],dtype>` type printed by the importer parses back to the same list
of sizes (dynamic ones as `?`) for every shape.
-/

namespace Verif

open TypeText Dtypes

namespace TypeText

theorem skipWs_cons {c : Char} {s : Text} (h : isBlank c = false) : skipWs (c :: s) = c :: s := by
  simp [skipWs, h]

theorem tok_self {c : Char} {s : Text} (h : isBlank c = false) : tok c (c :: s) = some s := by
  simp [tok, skipWs_cons h]

theorem tok_ne {c d : Char} {s : Text} (h : isBlank d = false) (hne : d ≠ c) :
    tok c (d :: s) = none := by
  simp [tok, skipWs_cons h, hne]

theorem isBlank_of_isDigit {c : Char} (h : c.isDigit = true) : isBlank c = false := by
  simp only [isBlank, Bool.or_eq_false_iff, beq_eq_false_iff_ne]
  refine ⟨⟨⟨?_, ?_⟩, ?_⟩, ?_⟩ <;> rintro rfl <;> exact absurd h (by decide)

theorem takeWhile_append_stop {α : Type} {p : α → Bool} {l : List α} {x : α} {r : List α}
    (hl : ∀ a ∈ l, p a = true) (hx : p x = false) :
    (l ++ x :: r).takeWhile p = l ∧ (l ++ x :: r).dropWhile p = x :: r := by
  induction l with
  | nil => simp [hx]
  | cons a l ih =>
    have ha := hl a (by simp)
    have := ih (fun b hb => hl b (by simp [hb]))
    simp [ha, this.1, this.2]

theorem digits_all {n : Nat} : ∀ c ∈ Nat.toDigits 10 n, c.isDigit = true :=
  fun _ hc => Nat.isDigit_of_mem_toDigits (by omega) (by omega) hc

theorem digits_cons (n : Nat) : ∃ c cs, Nat.toDigits 10 n = c :: cs ∧ c.isDigit = true := by
  cases h : Nat.toDigits 10 n with
  | nil => exact absurd h Nat.toDigits_ne_nil
  | cons c cs => exact ⟨c, cs, rfl, digits_all c (by rw [h]; simp)⟩

/-- Reading back a printed size. -/
theorem parseInt_digits {n : Nat} (hn : n ≤ 9223372036854775807) {c : Char} {r : Text}
    (hc : c.isDigit = false) :
    parseInt (Nat.toDigits 10 n ++ c :: r) = .ok n (c :: r) := by
  obtain ⟨d, ds, hd, hdd⟩ := digits_cons n
  have htd := takeWhile_append_stop (r := r) (digits_all (n := n)) hc
  unfold parseInt
  have hs : skipWs (Nat.toDigits 10 n ++ c :: r) = Nat.toDigits 10 n ++ c :: r := by
    rw [hd]; exact skipWs_cons (isBlank_of_isDigit hdd)
  rw [hs]
  split
  · rename_i r' heq
    rw [hd] at heq
    simp at heq
    rw [heq.1] at hdd
    exact absurd hdd (by decide)
  · rw [htd.1, htd.2]
    have : (Nat.toDigits 10 n).isEmpty = false := by rw [hd]; rfl
    rw [this, Nat.ofDigitChars_ten_toDigits]
    simp only [Bool.false_eq_true, if_false, intRes]
    rw [if_pos (by omega)]

theorem tok_question_digits {n : Nat} {r : Text} : tok '?' (Nat.toDigits 10 n ++ r) = none := by
  obtain ⟨d, ds, hd, hdd⟩ := digits_cons n
  rw [hd]
  apply tok_ne (isBlank_of_isDigit hdd)
  rintro rfl
  exact absurd hdd (by decide)

theorem tok_skip {c : Char} {s : Text} : tok c (skipWs s) = tok c s := by
  have : skipWs (skipWs s) = skipWs s := by
    induction s with
    | nil => rfl
    | cons a s ih =>
      by_cases h : isBlank a
      · simp [skipWs, h, ih]
      · simp [skipWs, h]
  simp [tok, this]

theorem skipWs_skip {s : Text} : skipWs (skipWs s) = skipWs s := by
  induction s with
  | nil => rfl
  | cons a s ih =>
    by_cases h : isBlank a
    · simp [skipWs, h, ih]
    · simp [skipWs, h]

theorem parseInt_blank {s : Text} : parseInt (' ' :: s) = parseInt s := by
  simp [parseInt, skipWs, isBlank]

theorem tok_blank {c : Char} {s : Text} : tok c (' ' :: s) = tok c s := by
  simp [tok, skipWs, isBlank]

/-- The text of one size. -/
def dimText (n : Int) : Text := if n < 0 then ['?'] else Nat.toDigits 10 n.natAbs

def SizeOk (n : Int) : Prop := n = -1 ∨ (0 ≤ n ∧ n ≤ 9223372036854775807)

/-- The separators of the two printers. -/
def IsSep (sep : Text) : Prop := sep = [','] ∨ sep = [',', ' ']

theorem parse_one {n : Int} (hn : SizeOk n) {s r : Text} {fuel : Nat} {c : Char}
    (hc : c.isDigit = false) (hr : r = c :: s) (first : Bool) (pre : Text)
    (hpre : (first = true ∧ pre = []) ∨ (first = false ∧ IsSep pre)) :
    parseSizes (fuel + 1) first (pre ++ dimText n ++ r) =
      (parseSizes fuel false r).map (fun (l, r') => (n :: l, r')) := by
  subst hr
  have key : ∀ s' : Text, (s' = dimText n ++ c :: s ∨ s' = ' ' :: (dimText n ++ c :: s)) →
      (match tok '?' s' with
      | some r => (parseSizes fuel false r).map (fun (l, r') => (-1 :: l, r'))
      | none => match parseInt s' with
        | .failed => none
        | .ok n r => (parseSizes fuel false r).map (fun (l, r') => (n :: l, r'))
        | .absent => some ([], s')) =
      (parseSizes fuel false (c :: s)).map (fun (l, r') => (n :: l, r')) := by
    intro s' hs'
    have h1 : tok '?' s' = tok '?' (dimText n ++ c :: s) := by
      rcases hs' with rfl | rfl
      · rfl
      · exact tok_blank
    have h2 : parseInt s' = parseInt (dimText n ++ c :: s) := by
      rcases hs' with rfl | rfl
      · rfl
      · exact parseInt_blank
    rw [h1, h2]
    rcases hn with rfl | ⟨h0, hmax⟩
    · simp only [dimText, show (-1 : Int) < 0 by decide, if_true, List.cons_append,
        List.nil_append]
      rw [tok_self (by decide)]
    · have hneg : ¬ n < 0 := by omega
      simp only [dimText, if_neg hneg]
      rw [tok_question_digits, parseInt_digits (by omega) hc]
      have : ((n.natAbs : Nat) : Int) = n := by omega
      rw [this]
  rcases hpre with ⟨rfl, rfl⟩ | ⟨rfl, hp⟩
  · simp only [parseSizes, List.nil_append]
    exact key _ (Or.inl rfl)
  · rcases hp with rfl | rfl
    · simp only [parseSizes, List.cons_append, List.nil_append]
      have : tok ',' (',' :: (dimText n ++ c :: s)) = some (dimText n ++ c :: s) :=
        tok_self (by decide)
      simp only [this, Bool.false_eq_true, if_false]
      exact key _ (Or.inl rfl)
    · simp only [parseSizes, List.cons_append, List.nil_append]
      have : tok ',' (',' :: ' ' :: (dimText n ++ c :: s)) = some (' ' :: (dimText n ++ c :: s)) :=
        tok_self (by decide)
      simp only [this, Bool.false_eq_true, if_false]
      exact key _ (Or.inr rfl)

/-- Sizes after the first, each preceded by the separator. -/
def tailText (sep : Text) : List Int → Text
  | [] => []
  | n :: l => sep ++ dimText n ++ tailText sep l

theorem join_eq (sep : Text) (n : Int) (l : List Int) :
    join sep ((n :: l).map dimText) = dimText n ++ tailText sep l := by
  induction l generalizing n with
  | nil => simp [join, tailText]
  | cons m l ih =>
    have := ih m
    simp only [List.map_cons] at this ⊢
    simp only [join, tailText]
    rw [this]
    simp

theorem tail_head {sep : Text} (hsep : IsSep sep) (l : List Int) (r : Text) :
    ∃ c s, tailText sep l ++ ']' :: r = c :: s ∧ c.isDigit = false ∧ isBlank c = false := by
  cases l with
  | nil => exact ⟨']', r, rfl, by decide, by decide⟩
  | cons n l =>
    rcases hsep with rfl | rfl
    · exact ⟨',', _, rfl, by decide, by decide⟩
    · exact ⟨',', _, rfl, by decide, by decide⟩

theorem parseSizes_tail {sep : Text} (hsep : IsSep sep) {l : List Int} (hl : ∀ n ∈ l, SizeOk n)
    {fuel : Nat} (hf : l.length < fuel) (r : Text) :
    parseSizes fuel false (tailText sep l ++ ']' :: r) = some (l, ']' :: r) := by
  induction l generalizing fuel with
  | nil =>
    cases fuel with
    | zero => omega
    | succ fuel =>
      simp only [tailText, List.nil_append, parseSizes]
      rw [if_neg (by decide), tok_ne (by decide) (by decide)]
  | cons n l ih =>
    cases fuel with
    | zero => omega
    | succ fuel =>
      obtain ⟨c, s, hcs, hc, -⟩ := tail_head hsep l r
      have := parse_one (hl n (by simp)) hc hcs (fuel := fuel) false sep (Or.inr ⟨rfl, hsep⟩)
      simp only [tailText, List.append_assoc] at this ⊢
      rw [this, ih (fun m hm => hl m (by simp [hm])) (by simpa using hf)]
      rfl

theorem parseSizes_join {sep : Text} (hsep : IsSep sep) {l : List Int} (hl : ∀ n ∈ l, SizeOk n)
    {fuel : Nat} (hf : l.length < fuel) (r : Text) :
    parseSizes fuel true (join sep (l.map dimText) ++ ']' :: r) = some (l, ']' :: r) := by
  cases l with
  | nil =>
    cases fuel with
    | zero => omega
    | succ fuel =>
      simp only [List.map_nil, join, List.nil_append, parseSizes]
      simp only [if_true]
      rw [tok_ne (by decide) (by decide)]
      have : parseInt (']' :: r) = .absent := by
        simp [parseInt, skipWs, isBlank]
      rw [this]
  | cons n l =>
    cases fuel with
    | zero => omega
    | succ fuel =>
      rw [join_eq]
      obtain ⟨c, s, hcs, hc, -⟩ := tail_head hsep l r
      have := parse_one (hl n (by simp)) hc hcs (fuel := fuel) true [] (Or.inl ⟨rfl, rfl⟩)
      simp only [List.nil_append, List.append_assoc] at this ⊢
      rw [this, parseSizes_tail hsep (fun m hm => hl m (by simp [hm])) (by simpa using hf)]
      rfl

theorem join_length {sep : Text} (hsep : IsSep sep) (l : List Int) :
    l.length ≤ (join sep (l.map dimText)).length := by
  have hd : ∀ n : Int, 1 ≤ (dimText n).length := by
    intro n
    unfold dimText
    split
    · simp
    · obtain ⟨d, ds, hd, -⟩ := digits_cons n.natAbs
      rw [hd]; simp
  have ht : ∀ l : List Int, l.length ≤ (tailText sep l).length := by
    intro l
    induction l with
    | nil => simp [tailText]
    | cons n l ih => have := hd n; simp only [tailText, List.length_append, List.length_cons]; omega
  cases l with
  | nil => simp
  | cons n l =>
    rw [join_eq]
    have := hd n; have := ht l
    simp only [List.length_append, List.length_cons]; omega

/-! ### Element types -/

/-- A character that may follow an element type. -/
def IsEnd (c : Char) : Prop := c = '>' ∨ c = ','

theorem isIdChar_end {c : Char} (h : IsEnd c) : isIdChar c = false := by
  rcases h with rfl | rfl <;> decide

theorem isIdChar_digit {c : Char} (h : c.isDigit = true) : isIdChar c = true := by
  simp [isIdChar, Char.isAlphanum, h]

theorem widthOf_digits (n : Nat) : widthOf (Nat.toDigits 10 n) = some n := by
  unfold widthOf
  obtain ⟨d, ds, hd, -⟩ := digits_cons n
  have h1 : (Nat.toDigits 10 n).isEmpty = false := by rw [hd]; rfl
  have h2 : (Nat.toDigits 10 n).all Char.isDigit = true := List.all_eq_true.mpr digits_all
  rw [h1, h2, Nat.ofDigitChars_ten_toDigits]
  rfl

theorem float_id (f : FloatTy) : ∀ c ∈ floatText f, isIdChar c = true := by
  cases f <;> decide +kernel

theorem parseElem_id {id : Text} {c : Char} {r : Text} (hid : ∀ a ∈ id, isIdChar a = true)
    (hne : id ≠ []) (hc : isIdChar c = false) (hcx : id ≠ ['c', 'o', 'm', 'p', 'l', 'e', 'x']) :
    parseElem (id ++ c :: r) = (elemOfId id).map (·, c :: r) := by
  cases id with
  | nil => exact absurd rfl hne
  | cons a id =>
    have ha := hid a (by simp)
    have hb : isBlank a = false := by
      simp only [isBlank, Bool.or_eq_false_iff, beq_eq_false_iff_ne]
      refine ⟨⟨⟨?_, ?_⟩, ?_⟩, ?_⟩ <;> rintro rfl <;> exact absurd ha (by decide)
    have htd := takeWhile_append_stop (r := r) hid hc
    unfold parseElem
    rw [List.cons_append, skipWs_cons hb]
    split
    · rename_i r' heq
      simp at heq
      rw [heq.1] at ha
      exact absurd ha (by decide)
    · rw [← List.cons_append, htd.1, htd.2, if_neg hcx]

theorem parseElem_print (d : ElemTy) {c : Char} (hc : IsEnd c) (r : Text) :
    parseElem (printElem d ++ c :: r) = some (d, c :: r) := by
  cases d with
  | float f =>
    rw [show printElem (.float f) = floatText f from rfl,
      parseElem_id (float_id f) (by cases f <;> simp [floatText]) (isIdChar_end hc)
        (by cases f <;> decide)]
    have : elemOfId (floatText f) = some (.float f) := by cases f <;> decide +kernel
    rw [this]; rfl
  | signed n =>
    rw [show printElem (.signed n) = 's' :: 'i' :: Nat.toDigits 10 n from rfl, parseElem_id _ _
      (isIdChar_end hc) (by simp)]
    · simp [elemOfId, widthOf_digits]
    · intro a ha
      simp at ha
      rcases ha with rfl | rfl | ha
      · decide
      · decide
      · exact isIdChar_digit (digits_all a ha)
    · simp
  | unsigned n =>
    rw [show printElem (.unsigned n) = 'u' :: 'i' :: Nat.toDigits 10 n from rfl, parseElem_id _ _
      (isIdChar_end hc) (by simp)]
    · simp [elemOfId, widthOf_digits]
    · intro a ha
      simp at ha
      rcases ha with rfl | rfl | ha
      · decide
      · decide
      · exact isIdChar_digit (digits_all a ha)
    · simp
  | signless n =>
    rw [show printElem (.signless n) = 'i' :: Nat.toDigits 10 n from rfl, parseElem_id _ _
      (isIdChar_end hc) (by simp)]
    · simp [elemOfId, widthOf_digits]
    · intro a ha
      simp at ha
      rcases ha with rfl | ha
      · decide
      · exact isIdChar_digit (digits_all a ha)
    · simp
  | complex f =>
    have key : parseElem (['c', 'o', 'm', 'p', 'l', 'e', 'x', '<'] ++ floatText f ++ ['>'] ++ c :: r) =
        some (.complex f, c :: r) := by
      cases f <;> rfl
    exact key
  | qint8 => rcases hc with rfl | rfl <;> rfl
  | quint8 => rcases hc with rfl | rfl <;> rfl
  | qint16 => rcases hc with rfl | rfl <;> rfl
  | qint32 => rcases hc with rfl | rfl <;> rfl

theorem tokUnk_print (d : ElemTy) {c : Char} (hc : IsEnd c) (r : Text) :
    tokUnk (printElem d ++ c :: r) = none := by
  have hdig : ∀ (p : Text) (n : Nat), p ≠ [] → (∀ a ∈ p, isIdChar a = true) →
      (∀ a ∈ p, isBlank a = false) →
      p ++ Nat.toDigits 10 n ≠ ['u', 'n', 'k'] → tokUnk (p ++ Nat.toDigits 10 n ++ c :: r) = none := by
    intro p n hne hid hbl hk
    unfold tokUnk
    have hs : skipWs (p ++ Nat.toDigits 10 n ++ c :: r) = p ++ Nat.toDigits 10 n ++ c :: r := by
      cases p with
      | nil => exact absurd rfl hne
      | cons a p => exact skipWs_cons (hbl a (by simp))
    rw [hs, (takeWhile_append_stop _ (isIdChar_end hc)).1, if_neg hk]
    intro a ha
    rcases List.mem_append.mp ha with ha | ha
    · exact hid a ha
    · exact isIdChar_digit (digits_all a ha)
  cases d with
  | float f => cases f <;> rcases hc with rfl | rfl <;> rfl
  | signed n => exact hdig ['s', 'i'] n (by simp) (by decide) (by decide) (by simp)
  | unsigned n => exact hdig ['u', 'i'] n (by simp) (by decide) (by decide) (by simp)
  | signless n => exact hdig ['i'] n (by simp) (by decide) (by decide) (by simp)
  | complex f => cases f <;> rfl
  | qint8 => rfl
  | quint8 => rfl
  | qint16 => rfl
  | qint32 => rfl

/-! ### Tensor types -/

def sizesText (sep : Text) : Option (List Int) → Text
  | some l => ['['] ++ join sep (l.map dimText) ++ [']']
  | none => ['*']

def dtypeText : Option ElemTy → Text
  | some d => printElem d
  | none => ['u', 'n', 'k']

def encText {α : Type} (attr : α → Text) : Option α → Text
  | some a => ',' :: attr a
  | none => []

/-- Reading back a bracketed tensor type. -/
theorem parseTensor_text {α : Type} {pr : α → Text} {pa : Text → Option (α × Text)}
    {sep : Text} (hsep : IsSep sep) (t : TensorTy α) (hv : verifyTensor t = true)
    (hsz : ∀ l, t.sizes = some l → ∀ n ∈ l, SizeOk n)
    (hattr : ∀ a, t.sparsity = some a → ∀ r, pa (pr a ++ '>' :: r) = some (a, '>' :: r)) (r : Text) :
    parseTensor pa t.value ('<' :: (sizesText sep t.sizes ++ ',' :: (dtypeText t.dtype ++
      (encText pr t.sparsity ++ '>' :: r)))) = some (t, r) := by
  have hdt : ∀ r', (∃ c s, r' = c :: s ∧ IsEnd c) →
      dtypePart (dtypeText t.dtype ++ r') = some (t.dtype, r') := by
    rintro r' ⟨c, s, rfl, hc⟩
    unfold dtypePart
    cases t.dtype with
    | none =>
      have : tokUnk (dtypeText none ++ c :: s) = some (c :: s) := by
        rcases hc with rfl | rfl <;> rfl
      rw [this]
    | some d =>
      simp only [dtypeText]
      rw [tokUnk_print d hc, parseElem_print d hc]
  have henc : sparsityPart pa (encText pr t.sparsity ++ '>' :: r) = some (t.sparsity, '>' :: r) := by
    unfold sparsityPart
    cases hs : t.sparsity with
    | none =>
      simp only [encText, List.nil_append]
      rw [tok_ne (by decide) (by decide)]
    | some a =>
      simp only [encText, List.cons_append]
      rw [tok_self (by decide)]
      simp only
      rw [hattr a hs r]
  have hend : ∃ c s, encText pr t.sparsity ++ '>' :: r = c :: s ∧ IsEnd c := by
    cases t.sparsity with
    | none => exact ⟨'>', r, rfl, Or.inl rfl⟩
    | some a => exact ⟨',', _, rfl, Or.inr rfl⟩
  have hsp : ∀ r', sizesPart (sizesText sep t.sizes ++ r') = some (t.sizes, r') := by
    intro r'
    unfold sizesPart
    cases hsizes : t.sizes with
    | none =>
      simp only [sizesText, List.cons_append, List.nil_append]
      rw [tok_self (by decide)]
    | some l =>
      simp only [sizesText, List.cons_append, List.nil_append, List.append_assoc]
      rw [tok_ne (by decide) (by decide), tok_self (by decide)]
      simp only
      rw [parseSizes_join hsep (hsz l hsizes)
        (by have := join_length hsep l; simp only [List.length_append]; omega)]
      simp only
      rw [tok_self (by decide)]
  unfold parseTensor
  rw [tok_self (by decide)]
  simp only
  rw [hsp]
  simp only
  rw [tok_self (by decide)]
  simp only
  rw [hdt _ hend]
  simp only
  rw [henc]
  simp only
  rw [tok_self (by decide)]
  simp only
  rw [if_pos hv]

theorem parseType_text {α : Type} {pa : Text → Option (α × Text)} {value : Bool} {c : Char}
    {r : Text} (hc : isIdChar c = false) :
    parseType pa ('!' :: ((if value then vtensorId else tensorId) ++ c :: r)) =
      match parseTensor pa value (c :: r) with
      | some (t, r) => if (skipWs r).isEmpty then some t else none
      | none => none := by
  unfold parseType
  rw [skipWs_cons (by decide)]
  have hid : ∀ a ∈ (if value then vtensorId else tensorId), isIdChar a = true := by
    cases value <;> decide +kernel
  obtain ⟨h1, h2⟩ := takeWhile_append_stop (r := r) hid hc
  simp only [h1, h2]
  cases value
  · rw [if_neg (by decide), if_pos (by rfl)]; rfl
  · rw [if_pos (by rfl)]; rfl

end TypeText

/-- A dimension as the torch dialect stores it: `-1` when dynamic. -/
def TypeText.Dim.size' : TypeText.Dim → Int
  | .symbolic => -1
  | .size n => n

/-- The type made from the text of `get_vtensor_type` has exactly the sizes of the shape (dynamic ones
unknown), the dtype, the encoding and the requested mutability. -/
theorem C19_importer {α : Type} (pa : Text → Option (α × Text)) (mutable : Bool) (shape : List Dim)
    (dtype : ElemTy) (hd : validDtype dtype = true)
    (hshape : ∀ n, Dim.size n ∈ shape → n ≤ 9223372036854775807)
    (enc : Option (Text × α)) (henc : ∀ e a, enc = some (e, a) → ∀ r, pa (e ++ '>' :: r) = some (a, '>' :: r)) :
    parseType pa (vtensorText mutable shape dtype (enc.map Prod.fst)) =
      some ⟨!mutable, some (shape.map Dim.size'), some dtype, enc.map Prod.snd⟩ := by
  have hdims : (shape.map Dim.size').map dimText =
      shape.map dimAsm := by
    rw [List.map_map]
    apply List.map_congr_left
    intro d _
    cases d with
    | symbolic => rfl
    | size n =>
      show (if (n : Int) < 0 then ['?'] else Nat.toDigits 10 (n : Int).natAbs) = Nat.toDigits 10 n
      rw [if_neg (by omega)]
      simp
  have hok : ∀ n ∈ shape.map Dim.size', SizeOk n := by
    intro n hn
    obtain ⟨d, hd, rfl⟩ := List.mem_map.mp hn
    cases d with
    | symbolic => exact Or.inl rfl
    | size n =>
      have := hshape n hd
      exact Or.inr ⟨by simp [Dim.size'], by simp only [Dim.size']; omega⟩
  have hver : verifyTensor (⟨!mutable, some (shape.map Dim.size'), some dtype, enc⟩ :
      TensorTy (Text × α)) = true := by
    simp only [verifyTensor, hd, Bool.true_and, List.all_eq_true]
    intro n hn
    rcases hok n hn with rfl | h
    · rfl
    · have : ¬ n < 0 := by omega
      simp [this]
  have hver' : verifyTensor (⟨!mutable, some (shape.map Dim.size'), some dtype, enc.map Prod.snd⟩ :
      TensorTy α) = true := hver
  cases enc with
  | none =>
    have := parseTensor_text (α := α) (pr := fun _ => []) (pa := pa) (sep := [',']) (Or.inl rfl)
      ⟨!mutable, some (shape.map Dim.size'), some dtype, none⟩ hver'
      (by intro l hl; cases hl; exact hok) (by intro a ha; cases ha) []
    simp only [sizesText, dtypeText, encText, List.nil_append] at this
    rw [hdims] at this
    have htext : vtensorText mutable shape dtype none = '!' :: ((if (!mutable) then vtensorId else tensorId)
        ++ '<' :: (['['] ++ formatAsmShape shape ++ [']'] ++ ',' :: (printElem dtype ++ ['>']))) := by
      cases mutable <;> simp [vtensorText]
    simp only [Option.map_none]
    rw [htext, parseType_text (by decide)]
    unfold formatAsmShape
    rw [this]
    rfl
  | some ea =>
    obtain ⟨e, a⟩ := ea
    have := parseTensor_text (α := α) (pr := fun _ => e) (pa := pa) (sep := [',']) (Or.inl rfl)
      ⟨!mutable, some (shape.map Dim.size'), some dtype, some a⟩ hver'
      (by intro l hl; cases hl; exact hok)
      (by intro b hb r; cases hb; exact henc e a rfl r) []
    simp only [sizesText, dtypeText, encText] at this
    rw [hdims] at this
    have htext : vtensorText mutable shape dtype (some e) = '!' :: ((if (!mutable) then vtensorId else tensorId)
        ++ '<' :: (['['] ++ formatAsmShape shape ++ [']'] ++ ',' :: (printElem dtype ++
          (',' :: e ++ ['>'])))) := by
      cases mutable <;> simp [vtensorText]
    simp only [Option.map_some]
    rw [htext, parseType_text (by decide)]
    unfold formatAsmShape
    rw [this]
    rfl

/-- The text of `create_vtensor_type` (the type of tensor literals) likewise. -/
theorem C19_literal {α : Type} (pa : Text → Option (α × Text)) (size : List Nat) (dtype : ElemTy)
    (hd : validDtype dtype = true) (hsize : ∀ n ∈ size, n ≤ 9223372036854775807) :
    parseType pa (createVtensorText size dtype) =
      some ⟨true, some (size.map (fun n : Nat => (n : Int))), some dtype, none⟩ := by
  have hdims : (size.map (fun n : Nat => (n : Int))).map dimText = size.map (Nat.toDigits 10) := by
    rw [List.map_map]
    apply List.map_congr_left
    intro n _
    simp only [Function.comp, dimText]
    rw [if_neg (by omega)]
    simp
  have hok : ∀ n ∈ size.map (fun n : Nat => (n : Int)), SizeOk n := by
    intro n hn
    obtain ⟨m, hm, rfl⟩ := List.mem_map.mp hn
    have := hsize m hm
    exact Or.inr ⟨by omega, by omega⟩
  have hver : verifyTensor (⟨true, some (size.map (fun n : Nat => (n : Int))), some dtype, none⟩ :
      TensorTy α) = true := by
    simp only [verifyTensor, hd, Bool.true_and, List.all_eq_true]
    intro n hn
    rcases hok n hn with rfl | h
    · rfl
    · have : ¬ n < 0 := by omega
      simp [this]
  have := parseTensor_text (α := α) (pr := fun _ => []) (pa := pa) (sep := [',', ' ']) (Or.inr rfl)
    ⟨true, some (size.map (fun n : Nat => (n : Int))), some dtype, none⟩ hver
    (by intro l hl; cases hl; exact hok) (by intro a ha; cases ha) []
  simp only [sizesText, dtypeText, encText, List.nil_append] at this
  rw [hdims] at this
  have htext : createVtensorText size dtype = '!' :: ((if true then vtensorId else tensorId)
      ++ '<' :: (['['] ++ join [',', ' '] (size.map (Nat.toDigits 10)) ++ [']'] ++ ',' ::
        (printElem dtype ++ ['>']))) := by
    simp [createVtensorText]
  rw [htext, parseType_text (by decide), this]
  rfl

/-- Print and parse of the torch dialect: every valid type is read back, provided its sizes or dtype
are known whenever it has an encoding. -/
theorem C57_partial {α : Type} (pr : α → Text) (pa : Text → Option (α × Text))
    (hattr : ∀ a r, pa (pr a ++ '>' :: r) = some (a, '>' :: r)) (t : TensorTy α)
    (hv : verifyTensor t = true) (hmax : ∀ l, t.sizes = some l → ∀ n ∈ l, n ≤ 9223372036854775807)
    (hs : t.sparsity.isSome → t.sizes.isSome ∨ t.dtype.isSome) :
    parseType pa (printType pr t) = some t := by
  have hsz : ∀ l, t.sizes = some l → ∀ n ∈ l, SizeOk n := by
    intro l hl n hn
    simp only [verifyTensor, hl, Bool.and_eq_true, List.all_eq_true] at hv
    have := hv.2 n hn
    by_cases h : n < 0
    · simp [h] at this; exact Or.inl this
    · exact Or.inr ⟨by omega, hmax l hl n hn⟩
  by_cases hnone : t.sizes = none ∧ t.dtype = none
  · obtain ⟨h1, h2⟩ := hnone
    have h3 : t.sparsity = none := by
      cases h : t.sparsity with
      | none => rfl
      | some a => simp [h, h1, h2] at hs
    obtain ⟨v, s, d, sp⟩ := t
    simp only at h1 h2 h3
    subst h1 h2 h3
    have h0 : parseTensor (α := α) pa true [] = some (⟨true, none, none, none⟩, []) := rfl
    have h0' : parseTensor (α := α) pa false [] = some (⟨false, none, none, none⟩, []) := rfl
    cases v
    · show parseType pa ('!' :: (tensorId ++ [])) = _
      simp only [List.append_nil]
      have e1 : tensorId.takeWhile isIdChar = tensorId := by decide
      have e2 : tensorId.dropWhile isIdChar = [] := by decide
      unfold parseType
      rw [skipWs_cons (by decide)]
      simp only [e1, e2]
      rw [if_neg (by decide), if_pos trivial, h0']
      rfl
    · show parseType pa ('!' :: (vtensorId ++ [])) = _
      simp only [List.append_nil]
      have e1 : vtensorId.takeWhile isIdChar = vtensorId := by decide
      have e2 : vtensorId.dropWhile isIdChar = [] := by decide
      unfold parseType
      rw [skipWs_cons (by decide)]
      simp only [e1, e2]
      rw [if_pos trivial, h0]
      rfl
  · have hcond : (t.sizes.isNone && t.dtype.isNone) = false := by
      cases h1 : t.sizes <;> cases h2 : t.dtype <;> simp_all
    have hsizes : printSizes t.sizes = sizesText [','] t.sizes := by
      cases t.sizes with
      | none => rfl
      | some l =>
        simp only [sizesText, printSizes]
        congr 3
        apply List.map_congr_left
        intro n _
        unfold dimText printInt
        split <;> rfl
    have hp := parseTensor_text (pr := pr) (pa := pa) (sep := [',']) (Or.inl rfl) t hv hsz
      (fun a _ r => hattr a r) []
    have htext : printType pr t = '!' :: ((if t.value then vtensorId else tensorId) ++
        '<' :: (sizesText [','] t.sizes ++ ',' :: (dtypeText t.dtype ++
          (encText pr t.sparsity ++ ['>'])))) := by
      simp only [printType, printTensor, hcond, Bool.false_eq_true, if_false]
      rw [hsizes]
      have hdt : printDtype t.dtype = dtypeText t.dtype := by cases t.dtype <;> rfl
      have hen : printSparsity pr t.sparsity = encText pr t.sparsity := by cases t.sparsity <;> rfl
      rw [hdt, hen]
      simp
    rw [htext, parseType_text (by decide), hp]
    rfl

/-- A type with an encoding but neither sizes nor dtype is printed like the type without it. -/
theorem C57_violated : ∃ (t t' : TensorTy Unit), verifyTensor t = true ∧ t ≠ t' ∧
    ∀ pr, printType pr t = printType pr t' :=
  ⟨⟨true, none, none, some ()⟩, ⟨true, none, none, none⟩, rfl, by decide, fun _ => rfl⟩

/-- Two texts of the importer are equal only if sizes, dtype and mutability are. -/
theorem C19_unambiguous (m m' : Bool) (shape shape' : List Dim) (d d' : ElemTy)
    (hd : validDtype d = true) (hd' : validDtype d' = true)
    (hs : ∀ n, Dim.size n ∈ shape → n ≤ 9223372036854775807)
    (hs' : ∀ n, Dim.size n ∈ shape' → n ≤ 9223372036854775807)
    (h : vtensorText m shape d none = vtensorText m' shape' d' none) :
    m = m' ∧ shape = shape' ∧ d = d' := by
  have h1 := C19_importer (α := Unit) (fun _ => none) m shape d hd hs none (by simp)
  have h2 := C19_importer (α := Unit) (fun _ => none) m' shape' d' hd' hs' none (by simp)
  simp only [Option.map_none] at h1 h2
  rw [h, h2] at h1
  simp only [Option.some.injEq, TensorTy.mk.injEq, and_true] at h1
  obtain ⟨hm, hsh, hdd⟩ := h1
  refine ⟨by simpa using hm.symm, ?_, hdd.symm⟩
  clear h h2 hs hs'
  induction shape generalizing shape' with
  | nil => cases shape' <;> simp_all
  | cons a l ih =>
    cases shape' with
    | nil => simp at hsh
    | cons b l' =>
      simp only [List.map_cons, List.cons.injEq] at hsh
      have hab : a = b := by
        cases a <;> cases b <;> simp only [Dim.size'] at hsh <;> first | rfl | omega | skip
        congr 1; omega
      rw [hab, ih l' hsh.2]

/-- Every dtype the importer prints is accepted by the dialect. -/
theorem C19_dtypes (d : Dtype) (s : String) (h : mlirTypeAsm d = some s) :
    ∃ t, printElem t = s.toList ∧ validDtype t = true ∧ t.desc = some d.desc := by
  cases d <;> cases h
  case uint8 => exact ⟨.unsigned 8, by decide +kernel, rfl, rfl⟩
  case int8 => exact ⟨.signed 8, by decide +kernel, rfl, rfl⟩
  case int16 => exact ⟨.signed 16, by decide +kernel, rfl, rfl⟩
  case int32 => exact ⟨.signed 32, by decide +kernel, rfl, rfl⟩
  case int64 => exact ⟨.signed 64, by decide +kernel, rfl, rfl⟩
  case float16 => exact ⟨.float .f16, by decide +kernel, rfl, rfl⟩
  case float32 => exact ⟨.float .f32, by decide +kernel, rfl, rfl⟩
  case float64 => exact ⟨.float .f64, by decide +kernel, rfl, rfl⟩
  case bfloat16 => exact ⟨.float .bf16, by decide +kernel, rfl, rfl⟩
  case complex32 => exact ⟨.complex .f16, by decide +kernel, rfl, rfl⟩
  case complex64 => exact ⟨.complex .f32, by decide +kernel, rfl, rfl⟩
  case complex128 => exact ⟨.complex .f64, by decide +kernel, rfl, rfl⟩
  case bool => exact ⟨.signless 1, by decide +kernel, rfl, rfl⟩
  case qint8 => exact ⟨.qint8, by decide +kernel, rfl, rfl⟩
  case quint8 => exact ⟨.quint8, by decide +kernel, rfl, rfl⟩
  case float8_e5m2 => exact ⟨.float .f8E5M2, by decide +kernel, rfl, rfl⟩
  case float8_e4m3fn => exact ⟨.float .f8E4M3FN, by decide +kernel, rfl, rfl⟩
  case float8_e5m2fnuz => exact ⟨.float .f8E5M2FNUZ, by decide +kernel, rfl, rfl⟩
  case float8_e4m3fnuz => exact ⟨.float .f8E4M3FNUZ, by decide +kernel, rfl, rfl⟩
  case float8_e8m0fnu => exact ⟨.float .f8E8M0FNU, by decide +kernel, rfl, rfl⟩
  case float4_e2m1fn_x2 => exact ⟨.float .f4E2M1FN, by decide +kernel, rfl, rfl⟩

/-- `!torch.vtensor<[2,?,10],complex<f32>>`. -/
example : String.ofList (vtensorText false [.size 2, .symbolic, .size 10] (.complex .f32) none) =
      "!torch.vtensor<[2,?,10],complex<f32>>" ∧
    parseType (α := Unit) (fun _ => none) "!torch.vtensor<[2,?,10],complex<f32>>".toList =
      some ⟨true, some [2, -1, 10], some (.complex .f32), none⟩ := by
  refine ⟨?_, ?_⟩ <;> decide +kernel

end Verif
