import Verif.Spec.Fields
import Verif.Lemmas.Closed
import Verif.Lemmas.Lexer
/-
Fields of operands, and a weakest-precondition calculus over the operand parsers: the current token
class and the set of instruction bits that are still free are tracked.  Any predicate with the rules of
`Logic` holds of every operand parser; it is instantiated in `Footprint.lean` (bits written, no
overlap) and in `Inside.lean` (nothing after the semicolon is read).
-/

namespace Nxas

theorem inF_nil (i : Nat) : inF [] i ↔ False := by simp [inF]
theorem inF_cons (f : Field) (fs : List Field) (i : Nat) :
    inF (f :: fs) i ↔ (f.1 ≤ i ∧ i < f.1 + f.2) ∨ inF fs i := by simp [inF]
theorem inF_append (a b : List Field) (i : Nat) : inF (a ++ b) i ↔ inF a i ∨ inF b i := by
  simp [inF, or_and_right, exists_or]

theorem Field.apart_iff (f g : Field) : f.apart g = true ↔ f.1 + f.2 ≤ g.1 ∨ g.1 + g.2 ≤ f.1 := by
  simp [Field.apart]

theorem apartList_cons (f : Field) (fs : List Field) :
    apartList (f :: fs) = true ↔ (∀ g ∈ fs, f.apart g = true) ∧ apartList fs = true := by
  simp [apartList]

theorem apartList_append {a b : List Field} : apartList (a ++ b) = true ↔
    apartList a = true ∧ apartList b = true ∧ ∀ f ∈ a, ∀ g ∈ b, f.apart g = true := by
  induction a with
  | nil => simp [apartList]
  | cons f a ih =>
    rw [List.cons_append, apartList_cons, apartList_cons, ih]
    constructor
    · rintro ⟨h1, h2, h3, h4⟩
      refine ⟨⟨fun g hg => h1 g (by simp [hg]), h2⟩, h3, ?_⟩
      intro g hg
      rcases List.mem_cons.1 hg with rfl | hg
      · exact fun x hx => h1 x (by simp [hx])
      · exact h4 g hg
    · rintro ⟨⟨h1, h2⟩, h3, h4⟩
      refine ⟨?_, h2, h3, fun g hg => h4 g (by simp [hg])⟩
      intro g hg
      rcases List.mem_append.1 hg with hg | hg
      · exact h1 g hg
      · exact h4 f (by simp) g hg

theorem lt_two_pow_width {m n : Nat} (h : m ≤ n) : m < 2 ^ width n :=
  Nat.lt_of_le_of_lt h Nat.lt_log2_self

theorem inF_setBits (b : BitVec 64) (i : Nat) : inF (setBits b) i ↔ b.getLsbD i = true := by
  unfold inF setBits
  simp only [List.mem_map, List.mem_filter, List.mem_range]
  constructor
  · rintro ⟨f, ⟨j, ⟨-, hj⟩, rfl⟩, h1, h2⟩
    simp only at h1 h2
    have : i = j := by omega
    rw [this]; exact hj
  · intro h
    have : i < 64 := by
      apply Decidable.byContradiction
      intro hn
      rw [BitVec.getLsbD_of_ge _ _ (by omega)] at h
      simp at h
    exact ⟨(i, 1), ⟨i, ⟨this, h⟩, rfl⟩, by simp, by simp⟩

/-- Operands that are neither branch targets nor clear bits. -/
def Operand.plain (o : Operand) : Bool :=
  match o.leaf with
  | .label | .mirrorGpr _ | .tldsType _ | .texsType _ => false
  | _ => true

/-! ### The calculus -/

/-- Bits set in `b` lie in the field of `n` bits from `lo`. -/
def Within (b : BitVec 64) (lo n : Nat) : Prop := ∀ i, b.getLsbD i = true → lo ≤ i ∧ i < lo + n

/-- The set of free bits after using a field. -/
def without (r : Nat → Prop) (lo n : Nat) : Nat → Prop := fun i => r i ∧ ¬ (lo ≤ i ∧ i < lo + n)

/-- The rules of the calculus.  `P m k r Q`: run on a token of class `k` with the free bits `r`, the
    computation `m` behaves well, and when it returns `a` at a token of class `k'` with free bits `r'`
    then `Q a k' r'`. -/
structure Logic (P : ∀ {α : Type}, M α → Kind → (Nat → Prop) → (α → Kind → (Nat → Prop) → Prop) → Prop) :
    Prop where
  pure : ∀ {α} (a : α) k r Q, Q a k r → P (M.pure a) k r Q
  bind : ∀ {α β} (m : M α) (f : α → M β) k r Q, P m k r (fun a k' r' => P (f a) k' r' Q) →
    P (m >>= f) k r Q
  getKind : ∀ k r Q, Q k k r → P getKind k r Q
  getValue : ∀ k r Q, (∀ v, Q v k r) → P getValue k r Q
  failTok : ∀ {α} msg k r Q, P (failTok msg : M α) k r Q
  ub : ∀ {α} u k r Q, u ≠ .readPastEnd → P (ubM u : M α) k r Q
  blameStart : ∀ {α} msg (m : M α) k r Q, P m k r Q → P (blameStart msg m) k r Q
  advance : ∀ k r Q, k ≠ .semicolon → (∀ k', k'.wf → Q () k' r) → P advance k r Q
  addSet : ∀ b (F : Nat → Prop) k r Q, (∀ i, b.getLsbD i = true → F i) → (∀ i, F i → r i) →
    Q () k (fun i => r i ∧ ¬ F i) → P (addBits b) k r Q
  addReuse : ∀ b j k (r : Nat → Prop) Q, (b, j) ∈ [(reuseGpr8, 64), (reuseGpr20, 65), (reuseGpr39, 66)] →
    r j → Q () k (without r j 1) → P (addReuse b) k r Q
  confirm : ∀ k0 k r Q, (k = k0 → Q () k r) → P (confirm k0) k r Q
  confirmIdent : ∀ k r Q, (∀ x, k = .ident x → Q x k r) → P confirmIdent k r Q
  confirmReg : ∀ k r Q, (∀ n, k = .reg n → Q n k r) → P confirmReg k r Q
  confirmPred : ∀ k r Q, (∀ i n, k = .pred i n → Q (i, n) k r) → P confirmPred k r Q
  convertInteger : ∀ a b k r Q, (∀ v, k = .imm v → a ≤ v → v ≤ b → Q v k r) →
    P (convertInteger a b) k r Q
  findInTable : ∀ b t p k r Q, Q none k r →
    (∀ i x, k = .ident x → i < t.length → Q (some i) k r) → P (findInTable b t p) k r Q

theorem Logic.addField
    {P : ∀ {α : Type}, M α → Kind → (Nat → Prop) → (α → Kind → (Nat → Prop) → Prop) → Prop}
    (L : Logic @P) (b : BitVec 64) (lo n : Nat) (k r Q) (hb : Within b lo n)
    (hr : ∀ i, lo ≤ i → i < lo + n → r i) (hq : Q () k (without r lo n)) : P (addBits b) k r Q :=
  L.addSet b (fun i => lo ≤ i ∧ i < lo + n) k r Q hb (fun i h => hr i h.1 h.2) hq

theorem within_shl {x : BitVec 64} {a w : Nat} (h : x.toNat < 2 ^ w) : Within (x <<< a) a w := by
  intro i hi
  rw [BitVec.getLsbD_shiftLeft] at hi
  simp only [Bool.and_eq_true, decide_eq_true_eq, Bool.not_eq_true', decide_eq_false_iff_not] at hi
  refine ⟨by omega, ?_⟩
  apply Decidable.byContradiction
  intro hn
  have : x.toNat.testBit (i - a) = false := by
    apply Nat.testBit_lt_two_pow
    exact Nat.lt_of_lt_of_le h (Nat.pow_le_pow_right (by omega) (by omega))
  rw [BitVec.getLsbD, this] at hi
  simp at hi

theorem within_ofNat {n a w : Nat} (h : n < 2 ^ w) : Within (BitVec.ofNat 64 n <<< a) a w := by
  apply within_shl
  rw [BitVec.toNat_ofNat]
  exact Nat.lt_of_le_of_lt (Nat.mod_le _ _) h

theorem u64_toNat {v : Int} (h0 : 0 ≤ v) (h1 : v < 2 ^ 64) : (u64 v).toNat = v.toNat := by
  unfold u64
  rw [BitVec.toNat_ofInt]
  have : (v % (2 ^ 64 : Nat)) = v := by
    apply Int.emod_eq_of_lt h0
    exact_mod_cast h1
  rw [this]

theorem within_u64 {v : Int} {a w : Nat} (h0 : 0 ≤ v) (h : v.toNat < 2 ^ w) :
    Within (u64 v <<< a) a w := by
  apply within_shl
  unfold u64
  rw [BitVec.toNat_ofInt]
  have : (v % (2 ^ 64 : Nat)).toNat ≤ v.toNat := by
    have h1 : ((2 ^ 64 : Nat) : Int) = 18446744073709551616 := rfl
    rw [h1]
    omega
  omega

theorem within_and_mask {x : BitVec 64} {n a : Nat} :
    Within ((x &&& BitVec.ofNat 64 (2 ^ n - 1)) <<< a) a n := by
  apply within_shl
  rw [BitVec.toNat_and, BitVec.toNat_ofNat]
  have h1 : (x.toNat &&& (2 ^ n - 1) % 2 ^ 64) ≤ (2 ^ n - 1) % 2 ^ 64 := Nat.and_le_right
  have h2 : (2 ^ n - 1) % 2 ^ 64 ≤ 2 ^ n - 1 := Nat.mod_le _ _
  have h3 : 0 < 2 ^ n := Nat.two_pow_pos n
  omega

theorem within_shr {n : Nat} {y : BitVec n} {j a w : Nat} (h : n ≤ w + j) :
    Within (((y >>> j).setWidth 64) <<< a) a w := by
  apply within_shl
  rw [BitVec.toNat_setWidth, BitVec.toNat_ushiftRight]
  refine Nat.lt_of_le_of_lt (Nat.mod_le _ _) ?_
  rw [Nat.shiftRight_eq_div_pow, Nat.div_lt_iff_lt_mul (Nat.two_pow_pos _), ← Nat.pow_add]
  exact Nat.lt_of_lt_of_le y.isLt (Nat.pow_le_pow_right (by omega) h)

theorem within_one (a : Nat) : Within (1#64 <<< a) a 1 := within_shl (by decide)
theorem within_bool (b : Bool) (a : Nat) : Within ((if b then 1#64 else 0#64) <<< a) a 1 :=
  within_shl (by cases b <;> decide)

theorem Within.mono {b : BitVec 64} {lo n lo' n' : Nat} (h : Within b lo n) (h1 : lo' ≤ lo)
    (h2 : lo + n ≤ lo' + n') : Within b lo' n' := by
  intro i hi
  have := h i hi
  omega

theorem Kind.equal_iff {k : Kind} {s : Str} : k.equal s = true ↔ k = .ident s := by
  simp [Kind.equal]

theorem Kind.ne_semi_of_equal {k : Kind} {s : Str} (h : k.equal s = true) : k ≠ .semicolon := by
  rw [Kind.equal_iff.1 h]; simp

/-- What is known when an operand parser returns: the free bits outside its fields are still free. -/
def After (r : Nat → Prop) (fs : List Field) (Q : Unit → Kind → (Nat → Prop) → Prop) : Prop :=
  ∀ k' r', k'.wf → (∀ i, r i → ¬ inF fs i → r' i) → Q () k' r'

/-- The current token is not a semicolon. -/
macro "ne_semi" : tactic => `(tactic| first
  | (apply Kind.ne_semi_of_equal; assumption)
  | assumption
  | (intro hsemi; simp_all; done)
  | (intro hsemi; subst hsemi; contradiction))

/-- One step of the calculus. -/
macro "wp_step" L:ident : tactic => `(tactic| first
  | with_reducible refine Logic.bind $L _ _ _ _ _ ?_
  | with_reducible refine Logic.getKind $L _ _ _ ?_
  | with_reducible exact Logic.failTok $L _ _ _ _
  | with_reducible exact Logic.ub $L _ _ _ _ (by decide)
  | with_reducible refine Logic.pure $L _ _ _ _ ?_
  | with_reducible refine Logic.getValue $L _ _ _ ?_
  | ((with_reducible refine Logic.advance $L _ _ _ ?hsemi ?_); case hsemi => ne_semi)
  | with_reducible refine Logic.confirm $L _ _ _ _ ?_
  | with_reducible refine Logic.confirmIdent $L _ _ _ ?_
  | with_reducible refine Logic.confirmReg $L _ _ _ ?_
  | with_reducible refine Logic.confirmPred $L _ _ _ ?_
  | with_reducible refine Logic.convertInteger $L _ _ _ _ _ ?_
  | with_reducible refine Logic.findInTable $L _ _ _ _ _ _ ?_ ?_
  | with_reducible refine Logic.blameStart $L _ _ _ _ _ ?_
  | (intro _; try dsimp only)
  | ((fail_if_success (with_reducible refine Logic.addField $L _ ?_ ?_ _ _ _ ?_ ?_ ?_)); split))

macro "wp" L:ident : tactic => `(tactic| (repeat' (wp_step $L)))

/-- The bits of a field are free, given that those of the operand's fields were. -/
macro "free" hr:ident : tactic => `(tactic| (
  intro i h1 h2
  have hi := $hr i (by simp only [inF_cons, inF_nil, or_false, reduceIte]; omega)
  first | exact hi | (simp only [without, hi, true_and]; omega)))

/-- Use the field of `n` bits from `lo`. -/
macro "use_field" L:ident lo:term:max n:term:max hr:ident : tactic => `(tactic| (
  refine Logic.addField $L _ $lo $n _ _ _ ?_ (by free $hr) ?_ <;> (try dsimp only)))

/-- Reach the end of an operand. -/
macro "fin" hq:ident : tactic => `(tactic| (
  refine $hq _ _ (by first | assumption | trivial) ?_
  intro i hi hn
  first
  | exact hi
  | (simp only [inF_cons, inF_nil, or_false, not_or, reduceIte] at hn
     simp only [without, hi, true_and]; omega)))

namespace Logic

variable {P : ∀ {α : Type}, M α → Kind → (Nat → Prop) → (α → Kind → (Nat → Prop) → Prop) → Prop}

theorem runFlag (L : Logic @P) (s : Str) (a : Nat) (k : Kind) (r Q) (hk : k.wf)
    (hr : ∀ i, inF [(a, 1)] i → r i) (hq : After r [(a, 1)] Q) : P (Nxas.runFlag s a) k r Q := by
  unfold Nxas.runFlag
  wp L
  · use_field L a 1 hr
    · exact within_one a
    · wp L
      fin hq
  · fin hq

theorem runUint (L : Logic @P) (m : Int) (a : Nat) (k : Kind) (r Q)
    (hr : ∀ i, inF [(a, width m.toNat)] i → r i) (hq : After r [(a, width m.toNat)] Q) :
    P (Nxas.runUint m a) k r Q := by
  unfold Nxas.runUint
  wp L
  use_field L a (width m.toNat) hr
  · exact within_u64 (by omega) (lt_two_pow_width (by omega))
  · wp L
    fin hq

theorem runSint (L : Logic @P) (b a : Nat) (k : Kind) (r Q)
    (hr : ∀ i, inF [(a, b)] i → r i) (hq : After r [(a, b)] Q) :
    P (Nxas.runSint b a) k r Q := by
  unfold Nxas.runSint
  wp L
  use_field L a b hr
  · exact within_and_mask
  · wp L
    fin hq

theorem runDotTable (L : Logic @P) (d : Option Nat) (a : Nat) (t : List Str) (k : Kind) (r Q)
    (hk : k.wf) (w : Nat) (hw1 : t.length ≤ 2 ^ w) (hw2 : d.getD 0 < 2 ^ w)
    (hr : ∀ i, inF [(a, w)] i → r i) (hq : After r [(a, w)] Q) :
    P (Nxas.runDotTable d a t) k r Q := by
  unfold Nxas.runDotTable
  refine L.bind _ _ _ _ _ (L.findInTable _ _ _ _ _ _ ?_ ?_)
  · cases d with
    | none => wp L
    | some d =>
      dsimp only
      use_field L a w hr
      · exact within_ofNat hw2
      · fin hq
  · intro i x hx hi
    have : P (Nxas.advance >>= fun _ => addBits (BitVec.ofNat 64 i <<< a)) k r Q := by
      wp L
      use_field L a w hr
      · exact within_ofNat (by omega)
      · fin hq
    cases d <;> exact this

theorem runUimmExtended (L : Logic @P) (k : Kind) (r Q)
    (hr : ∀ i, inF [(20, 20), (56, 1)] i → r i) (hq : After r [(20, 20), (56, 1)] Q) :
    P Nxas.runUimmExtended k r Q := by
  unfold Nxas.runUimmExtended
  wp L
  · use_field L 56 1 hr
    · exact within_one _
    wp L
    use_field L 20 20 hr
    · exact within_u64 (by omega) (by omega)
    wp L
    fin hq
  · use_field L 20 20 hr
    · exact within_u64 (by omega) (by omega)
    wp L
    fin hq

theorem runComma (L : Logic @P) (k : Kind) (r Q) (hq : After r [] Q) :
    P Nxas.runComma k r Q := by
  unfold Nxas.runComma
  wp L
  fin hq

theorem tryReuse (L : Logic @P) (a : Nat) (k : Kind) (r Q) (hk : k.wf)
    (hr : ∀ i, inF (reuseFields a) i → r i) (hq : After r (reuseFields a) Q) :
    P (Nxas.tryReuse a) k r Q := by
  unfold Nxas.tryReuse
  wp L
  · exact hq _ _ hk (fun i hi _ => hi)
  · rename_i h
    subst h
    rw [show reuseFields 8 = [(64, 1)] from rfl] at hr hq
    refine L.addReuse _ 64 _ _ _ (by simp) (hr 64 (by simp [inF_cons])) ?_
    dsimp only
    wp L
    fin hq
  · rename_i h
    subst h
    rw [show reuseFields 20 = [(65, 1)] from rfl] at hr hq
    refine L.addReuse _ 65 _ _ _ (by simp) (hr 65 (by simp [inF_cons])) ?_
    dsimp only
    wp L
    fin hq
  · rename_i h
    subst h
    rw [show reuseFields 39 = [(66, 1)] from rfl] at hr hq
    refine L.addReuse _ 66 _ _ _ (by simp) (hr 66 (by simp [inF_cons])) ?_
    dsimp only
    wp L
    fin hq

theorem assembleGpr (L : Logic @P) (a : Nat) (k : Kind) (r Q) (hk : k.wf)
    (hd : ∀ f ∈ reuseFields a, Field.apart (a, 8) f = true)
    (hr : ∀ i, inF ((a, 8) :: reuseFields a) i → r i) (hq : After r ((a, 8) :: reuseFields a) Q) :
    P (Nxas.assembleGpr a) k r Q := by
  unfold Nxas.assembleGpr
  wp L
  rename_i n hn
  refine L.addField _ a 8 _ _ _ ?_ (fun i h1 h2 => hr i ?_) ?_
  · subst hn
    exact within_ofNat (Nat.lt_of_le_of_lt hk (by decide))
  · rw [inF_cons]; exact .inl ⟨h1, h2⟩
  wp L
  refine L.tryReuse a _ _ _ ‹_› ?_ ?_
  · intro i hi
    refine ⟨hr i (by rw [inF_cons]; exact .inr hi), ?_⟩
    obtain ⟨f, hf, h1, h2⟩ := hi
    have := (Field.apart_iff _ _).1 (hd f hf)
    simp only at this
    omega
  · intro k' r' hk' h'
    refine hq k' r' hk' ?_
    intro i hi hn'
    rw [inF_cons, not_or] at hn'
    exact h' i ⟨hi, hn'.1⟩ hn'.2

theorem runCbuf (L : Logic @P) (k : Kind) (r Q)
    (hr : ∀ i, inF [(34, 5), (20, 14)] i → r i) (hq : After r [(34, 5), (20, 14)] Q) :
    P Nxas.runCbuf k r Q := by
  unfold Nxas.runCbuf
  wp L
  use_field L 34 5 hr
  · rename_i h
    unfold maxBits at h
    exact within_u64 (by omega) (by omega)
  wp L
  use_field L 20 14 hr
  · exact within_shr (by omega)
  wp L
  fin hq

theorem runImm20 (L : Logic @P) (k : Kind) (r Q)
    (hr : ∀ i, inF [(20, 19), (56, 1)] i → r i) (hq : After r [(20, 19), (56, 1)] Q) :
    P Nxas.runImm20 k r Q := by
  unfold Nxas.runImm20
  wp L
  rename_i v hv h1 h2
  unfold maxBits at h2
  use_field L 20 19 hr
  · split
    · exact within_and_mask
    · exact within_u64 (by omega) (by omega)
  wp L
  use_field L 56 1 hr
  · split
    · exact within_one _
    · exact within_shl (by decide)
  wp L
  fin hq

theorem floatKeyword (L : Logic @P) {n : Nat} (a b : BitVec n) (k : Kind) (r)
    (Q : BitVec n → Kind → (Nat → Prop) → Prop) (hq : k ≠ .semicolon → ∀ x, Q x k r) :
    P (Nxas.floatKeyword a b) k r Q := by
  unfold Nxas.floatKeyword
  wp L
  · exact hq (by ne_semi) _
  · exact hq (by ne_semi) _

theorem floatValue (L : Logic @P) (k : Kind) (r) (Q : BitVec 32 → Kind → (Nat → Prop) → Prop)
    (hk : k.wf) (hq : ∀ x k', k'.wf → k' ≠ .semicolon → Q x k' r) : P Nxas.floatValue k r Q := by
  unfold Nxas.floatValue
  refine L.bind _ _ _ _ _ (L.getKind _ _ _ ?_)
  cases k <;> dsimp only <;> wp L
  all_goals first
    | exact hq _ _ hk (by simp)
    | (refine L.floatKeyword _ _ _ _ _ ?_
       intro hn x
       wp L
       exact hq _ _ ‹_› hn)

theorem runFimm (L : Logic @P) (w : Bool) (k : Kind) (r Q) (hk : k.wf)
    (hr : ∀ i, inF (if w then [(20, 32)] else [(20, 19), (56, 1)]) i → r i)
    (hq : After r (if w then [(20, 32)] else [(20, 19), (56, 1)]) Q) :
    P (Nxas.runFimm w) k r Q := by
  unfold Nxas.runFimm
  refine L.bind _ _ _ _ _ (L.floatValue _ _ _ hk ?_)
  intro x k' hk' hn
  cases w with
  | true =>
    simp only [reduceIte] at hr hq ⊢
    wp L
    use_field L 20 32 hr
    · apply within_shl
      rw [BitVec.toNat_setWidth]
      have := x.isLt
      omega
    wp L
    fin hq
  | false =>
    simp only [Bool.false_eq_true, reduceIte] at hr hq ⊢
    wp L
    use_field L 20 19 hr
    · exact within_shr (by omega)
    · wp L
      · use_field L 56 1 hr
        · exact within_one _
        wp L
        fin hq
      · fin hq

theorem doubleValue (L : Logic @P) (k : Kind) (r) (Q : BitVec 64 → Kind → (Nat → Prop) → Prop)
    (hk : k.wf) (hr : ∀ i, inF [(56, 1)] i → r i)
    (hq : ∀ x k' r', k'.wf → k' ≠ .semicolon → (∀ i, r i → ¬ inF [(56, 1)] i → r' i) → Q x k' r') :
    P Nxas.doubleValue k r Q := by
  have drop : ∀ i, r i → ¬ inF [(56, 1)] i → without r 56 1 i := by
    intro i hi hn
    refine ⟨hi, ?_⟩
    simp only [inF_cons, inF_nil, or_false] at hn
    exact hn
  unfold Nxas.doubleValue
  refine L.bind _ _ _ _ _ (L.getKind _ _ _ ?_)
  cases k
  case imm v =>
    dsimp only
    wp L
    · use_field L 56 1 hr
      · exact within_one _
      wp L
      exact hq _ _ _ hk (by simp) drop
    · exact hq _ _ _ hk (by simp) (fun i hi _ => hi)
  case fimm b =>
    dsimp only
    wp L
    · use_field L 56 1 hr
      · exact within_one _
      wp L
      exact hq _ _ _ hk (by simp) drop
    · exact hq _ _ _ hk (by simp) (fun i hi _ => hi)
  case plus =>
    dsimp only
    wp L
    refine L.floatKeyword _ _ _ _ _ ?_
    intro hn x
    exact hq _ _ _ ‹_› hn (fun i hi _ => hi)
  case minus =>
    dsimp only
    wp L
    use_field L 56 1 hr
    · exact within_one _
    wp L
    refine L.floatKeyword _ _ _ _ _ ?_
    intro hn x
    exact hq _ _ _ ‹_› hn drop
  case ident =>
    dsimp only
    refine L.floatKeyword _ _ _ _ _ ?_
    intro hn x
    exact hq _ _ _ ‹_› hn (fun i hi _ => hi)
  all_goals exact L.failTok _ _ _ _

theorem runDimm20 (L : Logic @P) (k : Kind) (r Q) (hk : k.wf)
    (hr : ∀ i, inF [(20, 19), (56, 1)] i → r i) (hq : After r [(20, 19), (56, 1)] Q) :
    P Nxas.runDimm20 k r Q := by
  unfold Nxas.runDimm20
  refine L.bind _ _ _ _ _ (L.doubleValue _ _ _ hk ?_ ?_)
  · intro i hi
    refine hr i ?_
    rw [inF_cons]
    exact .inr hi
  intro x k' r' hk' hn hr'
  wp L
  refine L.addField _ 20 19 _ _ _ ?_ ?_ ?_
  · have := within_shr (y := x <<< 1) (j := 45) (a := 20) (w := 19) (by omega)
    rwa [BitVec.setWidth_eq] at this
  · intro i h1 h2
    refine hr' i (hr i ?_) ?_
    · simp only [inF_cons]; omega
    · simp only [inF_cons, inF_nil, or_false]; omega
  · wp L
    refine hq _ _ ‹_› ?_
    intro i hi hn
    simp only [inF_cons, inF_nil, or_false, not_or] at hn
    refine ⟨hr' i hi ?_, by omega⟩
    simp only [inF_cons, inF_nil, or_false]; omega

/-- The negation bit of a half immediate. -/
def _root_.Nxas.negFields (n : Option Nat) : List Field := match n with | some n => [(n, 1)] | none => []

theorem addNegBit (L : Logic @P) (n : Option Nat) (k : Kind) (r Q)
    (hr : ∀ i, inF (negFields n) i → r i)
    (hq : ∀ r', (∀ i, r i → ¬ inF (negFields n) i → r' i) → Q () k r') :
    P (Nxas.addNegBit n) k r Q := by
  unfold Nxas.addNegBit
  cases n with
  | none => exact L.pure _ _ _ _ (hq _ (fun i hi _ => hi))
  | some n =>
    dsimp only [negFields] at hr hq ⊢
    use_field L n 1 hr
    · exact within_one _
    · refine hq _ (fun i hi hn => ⟨hi, ?_⟩)
      simp only [inF_cons, inF_nil, or_false] at hn
      exact hn

theorem halfValue (L : Logic @P) (n : Option Nat) (k : Kind) (r)
    (Q : BitVec 16 → Kind → (Nat → Prop) → Prop)
    (hk : k.wf) (hr : ∀ i, inF (negFields n) i → r i)
    (hq : ∀ x k' r', k'.wf → k' ≠ .semicolon → (∀ i, r i → ¬ inF (negFields n) i → r' i) → Q x k' r') :
    P (Nxas.halfValue n) k r Q := by
  unfold Nxas.halfValue
  refine L.bind _ _ _ _ _ (L.getKind _ _ _ ?_)
  cases k
  case imm v =>
    dsimp only
    wp L
    · refine L.addNegBit n _ _ _ hr ?_
      wp L
      exact hq _ _ _ hk (by simp) ‹_›
    · exact hq _ _ _ hk (by simp) (fun i hi _ => hi)
  case fimm b =>
    dsimp only
    wp L
    · refine L.addNegBit n _ _ _ hr ?_
      wp L
      exact hq _ _ _ hk (by simp) ‹_›
    · exact hq _ _ _ hk (by simp) (fun i hi _ => hi)
  case plus =>
    dsimp only
    wp L
    refine L.floatKeyword _ _ _ _ _ ?_
    intro hn x
    exact hq _ _ _ ‹_› hn (fun i hi _ => hi)
  case minus =>
    dsimp only
    wp L
    all_goals
      refine L.floatKeyword _ _ _ _ _ ?_
      intro hn x
      wp L
      refine L.addNegBit n _ _ _ hr ?_
      wp L
      exact hq _ _ _ ‹_› hn ‹_›
  case ident =>
    dsimp only
    refine L.floatKeyword _ _ _ _ _ ?_
    intro hn x
    exact hq _ _ _ ‹_› hn (fun i hi _ => hi)
  all_goals exact L.failTok _ _ _ _

theorem runHimm (L : Logic @P) (w : Bool) (o : Nat) (n : Option Nat) (k : Kind) (r Q) (hk : k.wf)
    (z : Nat) (hz : z = if w then 16 else 9)
    (hd : ∀ f ∈ negFields n, Field.apart (o, z) f = true)
    (hr : ∀ i, inF ((o, z) :: negFields n) i → r i)
    (hq : After r ((o, z) :: negFields n) Q) :
    P (Nxas.runHimm w o n) k r Q := by
  unfold Nxas.runHimm
  refine L.bind _ _ _ _ _ (L.halfValue n _ _ _ hk ?_ ?_)
  · intro i hi
    refine hr i ?_
    rw [inF_cons]
    exact .inr hi
  intro x k' r' hk' hn hr'
  have go : ∀ b, Within b o z →
      P (addBits b >>= fun _ => Nxas.advance) k' r' Q := by
    intro b hb
    wp L
    refine L.addField _ o z _ _ _ hb ?_ ?_
    · intro i h1 h2
      refine hr' i (hr i ?_) ?_
      · rw [inF_cons]; exact .inl ⟨h1, h2⟩
      · rintro ⟨f, hf, h3, h4⟩
        have := (Field.apart_iff _ _).1 (hd f hf)
        simp only at this
        omega
    · wp L
      refine hq _ _ ‹_› ?_
      intro i hi hn
      rw [inF_cons, not_or] at hn
      exact ⟨hr' i hi hn.2, hn.1⟩
  cases w with
  | true =>
    apply go
    have := within_shr (y := x) (j := 0) (a := o) (w := 16) (by omega)
    rw [BitVec.ushiftRight_zero] at this
    rw [hz]
    exact this
  | false =>
    apply go
    rw [hz]
    exact within_shr (by simp)

/-- Add one field, then read the next token. -/
theorem addAdvance (L : Logic @P) {b : BitVec 64} {a n : Nat} {k : Kind} {r Q} (hb : Within b a n)
    (hn : k ≠ .semicolon) (hr : ∀ i, inF [(a, n)] i → r i) (hq : After r [(a, n)] Q) :
    P (addBits b >>= fun _ => Nxas.advance) k r Q := by
  wp L
  use_field L a n hr
  · exact hb
  wp L
  fin hq

/-- Read the next token, then add one field. -/
theorem advanceAdd (L : Logic @P) {b : BitVec 64} {a n : Nat} {k : Kind} {r Q} (hb : Within b a n)
    (hn : k ≠ .semicolon) (hr : ∀ i, inF [(a, n)] i → r i) (hq : After r [(a, n)] Q) :
    P (Nxas.advance >>= fun _ => addBits b) k r Q := by
  wp L
  use_field L a n hr
  · exact hb
  fin hq

/-- Add one field. -/
theorem add (L : Logic @P) {b : BitVec 64} {a n : Nat} {k : Kind} {r Q} (hb : Within b a n)
    (hk : k.wf) (hr : ∀ i, inF [(a, n)] i → r i) (hq : After r [(a, n)] Q) :
    P (addBits b) k r Q := by
  use_field L a n hr
  · exact hb
  fin hq

theorem runBop (L : Logic @P) (a : Nat) (k : Kind) (r Q)
    (hr : ∀ i, inF [(a, 2)] i → r i) (hq : After r [(a, 2)] Q) : P (Nxas.runBop a) k r Q := by
  unfold Nxas.runBop
  refine L.bind _ _ _ _ _ (L.findInTable _ _ _ _ _ _ ?_ ?_)
  · exact L.failTok _ _ _ _
  · intro i x hx hi
    exact L.addAdvance (within_ofNat hi) (by ne_semi) hr hq

theorem runPred (L : Logic @P) (a : Nat) (n : Bool) (k : Kind) (r Q) (hk : k.wf)
    (hr : ∀ i, inF ((a, 3) :: if n then [(a + 3, 1)] else []) i → r i)
    (hq : After r ((a, 3) :: if n then [(a + 3, 1)] else []) Q) : P (Nxas.runPred a n) k r Q := by
  unfold Nxas.runPred
  wp L
  rename_i p q hp
  refine L.addField _ a 3 _ _ _ ?_ (fun i h1 h2 => hr i ?_) ?_
  · subst hp
    exact within_ofNat (Nat.lt_of_le_of_lt hk (by decide))
  · rw [inF_cons]; exact .inl ⟨h1, h2⟩
  cases n with
  | true =>
    simp only [reduceIte] at hr hq ⊢
    wp L
    use_field L (a + 3) 1 hr
    · exact within_bool q _
    wp L
    fin hq
  | false =>
    simp only [Bool.false_eq_true, reduceIte] at hr hq ⊢
    wp L
    fin hq

theorem runInvertedPred (L : Logic @P) (a : Nat) (k : Kind) (r Q) (hk : k.wf)
    (hr : ∀ i, inF [(a, 3)] i → r i) (hq : After r [(a, 3)] Q) :
    P (Nxas.runInvertedPred a) k r Q := by
  unfold Nxas.runInvertedPred
  wp L
  rename_i p q hp
  use_field L a 3 hr
  · subst hp
    have : p ≤ 7 := hk
    exact within_u64 (by omega) (by omega)
  wp L
  fin hq

theorem runSign (L : Logic @P) (k0 : Kind) (h0 : k0 ≠ .semicolon) (a : Nat) (k : Kind) (r Q) (hk : k.wf)
    (hr : ∀ i, inF [(a, 1)] i → r i) (hq : After r [(a, 1)] Q) :
    P (Nxas.runSign k0 a) k r Q := by
  unfold Nxas.runSign
  refine L.bind _ _ _ _ _ (L.getKind _ _ _ ?_)
  split
  · exact L.addAdvance (within_one _) (by subst_vars; exact h0) hr hq
  · wp L
    fin hq

theorem runAbs (L : Logic @P) (a : Nat) (m : M Unit) (fs : List Field)
    (hm : ∀ k r Q, k.wf → (∀ i, inF fs i → r i) → After r fs Q → P m k r Q)
    (hd : ∀ f ∈ fs, Field.apart (a, 1) f = true) (k : Kind) (r Q) (hk : k.wf)
    (hr : ∀ i, inF ((a, 1) :: fs) i → r i) (hq : After r ((a, 1) :: fs) Q) :
    P (Nxas.runAbs a m) k r Q := by
  unfold Nxas.runAbs
  wp L
  · refine L.addField _ a 1 _ _ _ (within_one _) (fun i h1 h2 => hr i ?_) ?_
    · rw [inF_cons]; exact .inl ⟨h1, h2⟩
    wp L
    refine hm _ _ _ ‹_› ?_ ?_
    · intro i hi
      refine ⟨hr i (by rw [inF_cons]; exact .inr hi), ?_⟩
      obtain ⟨f, hf, h1, h2⟩ := hi
      have := (Field.apart_iff _ _).1 (hd f hf)
      simp only at this
      omega
    · intro k' r' hk' hr'
      wp L
      refine hq _ _ ‹_› ?_
      intro i hi hn
      rw [inF_cons, not_or] at hn
      exact hr' i ⟨hi, hn.1⟩ hn.2
  · refine hm _ _ _ hk (fun i hi => hr i (by rw [inF_cons]; exact .inr hi)) ?_
    intro k' r' hk' hr'
    refine hq _ _ hk' ?_
    intro i hi hn
    rw [inF_cons, not_or] at hn
    exact hr' i hi hn.2

theorem runPo (L : Logic @P) (a b : Nat) (k : Kind) (r Q) (hk : k.wf)
    (hr : ∀ i, inF [(a, 1), (b, 1)] i → r i) (hq : After r [(a, 1), (b, 1)] Q) :
    P (Nxas.runPo a b) k r Q := by
  unfold Nxas.runPo
  wp L
  · fin hq
  · refine L.addSet _ (inF [(a, 1), (b, 1)]) _ _ _ ?_ hr ?_
    · intro i hi
      rw [BitVec.getLsbD_or, Bool.or_eq_true] at hi
      simp only [inF_cons, inF_nil, or_false]
      rcases hi with hi | hi
      · exact .inl (within_one _ i hi)
      · exact .inr (within_one _ i hi)
    · wp L
      exact hq _ _ ‹_› (fun i hi hn => ⟨hi, hn⟩)

theorem runMemAddress (L : Logic @P) (imm : Bool) (a s j : Nat) (k : Kind) (r Q)
    (hd : apartList ((8, 8) :: (64, 1) :: if imm then [(a, s)] else []) = true)
    (hr : ∀ i, inF ((8, 8) :: (64, 1) :: if imm then [(a, s)] else []) i → r i)
    (hq : After r ((8, 8) :: (64, 1) :: if imm then [(a, s)] else []) Q) :
    P (Nxas.runMemAddress imm a s j) k r Q := by
  -- what follows the register: the offset and the closing bracket
  have last : ∀ (n : Nat) (k' : Kind) (r' : Nat → Prop), n ≤ 255 → k'.wf →
      (∀ i, r i → ¬ inF [(64, 1)] i → r' i) →
      P (addBits (BitVec.ofNat 64 n <<< 8) >>= fun _ =>
        if imm then Nxas.getKind >>= fun t2 =>
          match t2 with
          | .imm _ =>
            let isZeroReg : Bool := n = 255
            let min : Int := if isZeroReg then 0 else -(2 ^ (s - 1))
            let max : Int := maxBits (if isZeroReg then s else s - 1)
            Nxas.convertInteger min max >>= fun v =>
            addBits (((u64 v >>> j) &&& BitVec.ofNat 64 (2 ^ s - 1)) <<< a) >>= fun _ =>
            Nxas.advance >>= fun _ =>
            Nxas.confirm .rbracket >>= fun _ => Nxas.advance
          | _ => Nxas.confirm .rbracket >>= fun _ => Nxas.advance
        else Nxas.confirm .rbracket >>= fun _ => Nxas.advance) k' r' Q := by
    intro n k' r' hn hk' hr'
    have close : ∀ k'' (r'' : Nat → Prop), (∀ i, r i → ¬ inF ((8, 8) :: (64, 1) :: if imm then [(a, s)] else []) i → r'' i) →
        P (Nxas.confirm .rbracket >>= fun _ => Nxas.advance) k'' r'' Q := by
      intro k'' r'' h
      wp L
      exact hq _ _ ‹_› h
    refine L.bind _ _ _ _ _ (L.addField _ 8 8 _ _ _ (within_ofNat (by omega)) ?_ ?_)
    · intro i h1 h2
      refine hr' i (hr i ?_) ?_
      · rw [inF_cons]; exact .inl ⟨h1, h2⟩
      · simp only [inF_cons, inF_nil, or_false]; omega
    · cases imm with
      | false =>
        refine close _ _ ?_
        intro i hi hn'
        simp only [Bool.false_eq_true, reduceIte, inF_cons, inF_nil, or_false, not_or] at hn'
        refine ⟨hr' i hi ?_, by omega⟩
        simp only [inF_cons, inF_nil, or_false]; omega
      | true =>
        simp only [reduceIte] at hd hr close ⊢
        simp only [apartList, Field.apart, List.all_cons, List.all_nil, Bool.and_true, Bool.and_eq_true,
          Bool.or_eq_true, decide_eq_true_eq] at hd
        have skip : ∀ k'', P (Nxas.confirm .rbracket >>= fun _ => Nxas.advance) k'' (without r' 8 8) Q := by
          intro k''
          refine close _ _ ?_
          intro i hi hn'
          simp only [inF_cons, inF_nil, or_false, not_or] at hn'
          refine ⟨hr' i hi ?_, by omega⟩
          simp only [inF_cons, inF_nil, or_false]; omega
        refine L.bind _ _ _ _ _ (L.getKind _ _ _ ?_)
        cases k' <;> first | exact skip _ | skip
        dsimp only
        refine L.bind _ _ _ _ _ (L.convertInteger _ _ _ _ _ ?_)
        intro v hv _ _
        refine L.bind _ _ _ _ _ (L.addField _ a s _ _ _ within_and_mask ?_ ?_)
        · intro i h1 h2
          refine ⟨hr' i (hr i ?_) ?_, by omega⟩
          · simp only [inF_cons]; omega
          · simp only [inF_cons, inF_nil, or_false]; omega
        · refine L.bind _ _ _ _ _ (L.advance _ _ _ (by simp) ?_)
          intro k'' hk''
          refine close _ _ ?_
          intro i hi hn'
          simp only [inF_cons, inF_nil, or_false, not_or] at hn'
          refine ⟨⟨hr' i hi ?_, by omega⟩, by omega⟩
          simp only [inF_cons, inF_nil, or_false]; omega
  unfold Nxas.runMemAddress
  refine L.bind _ _ _ _ _ (L.confirm _ _ _ _ ?_)
  intro hk0
  refine L.bind _ _ _ _ _ (L.advance _ _ _ (by ne_semi) ?_)
  intro k1 hk1
  refine L.bind _ _ _ _ _ (L.getKind _ _ _ ?_)
  have skip : P (M.pure 255 >>= fun n => addBits (BitVec.ofNat 64 n <<< 8) >>= fun _ =>
        if imm then Nxas.getKind >>= fun t2 =>
          match t2 with
          | .imm _ =>
            let isZeroReg : Bool := n = 255
            let min : Int := if isZeroReg then 0 else -(2 ^ (s - 1))
            let max : Int := maxBits (if isZeroReg then s else s - 1)
            Nxas.convertInteger min max >>= fun v =>
            addBits (((u64 v >>> j) &&& BitVec.ofNat 64 (2 ^ s - 1)) <<< a) >>= fun _ =>
            Nxas.advance >>= fun _ =>
            Nxas.confirm .rbracket >>= fun _ => Nxas.advance
          | _ => Nxas.confirm .rbracket >>= fun _ => Nxas.advance
        else Nxas.confirm .rbracket >>= fun _ => Nxas.advance) k1 r Q :=
    L.bind _ _ _ _ _ (L.pure _ _ _ _ (last 255 k1 r (by omega) hk1 (fun i hi _ => hi)))
  cases k1 <;> first | exact skip | skip
  rename_i n
  refine L.bind _ _ _ _ _ (L.bind _ _ _ _ _ (L.advance _ _ _ (by simp) ?_))
  intro k2 hk2
  refine L.bind _ _ _ _ _ (L.tryReuse 8 _ _ _ hk2 ?_ ?_)
  · intro i hi
    refine hr i ?_
    rw [inF_cons, inF_cons]
    rw [show reuseFields 8 = [(64, 1)] from rfl, inF_cons, inF_nil, or_false] at hi
    exact .inr (.inl hi)
  · intro k3 r3 hk3 hr3
    exact L.pure _ _ _ _ (last n k3 r3 hk1 hk3 hr3)

theorem runCcTests (L : Logic @P) (a : Nat) (t : List Str) (k : Kind) (r Q) (hk : k.wf)
    (hr : ∀ i, inF [(a, width (max (t.length - 1) 15))] i → r i)
    (hq : After r [(a, width (max (t.length - 1) 15))] Q) : P (Nxas.runCcTests a t) k r Q := by
  unfold Nxas.runCcTests
  refine L.bind _ _ _ _ _ (L.getKind _ _ _ ?_)
  split
  · refine L.bind _ _ _ _ _ (L.advance _ _ _ (by ne_semi) ?_)
    intro k' hk'
    refine L.bind _ _ _ _ _ (L.confirmIdent _ _ _ ?_)
    intro x hx
    refine L.bind _ _ _ _ _ (L.findInTable _ _ _ _ _ _ ?_ ?_)
    · exact L.failTok _ _ _ _
    · intro i x hx hi
      refine L.advanceAdd (within_ofNat (lt_two_pow_width ?_)) (by ne_semi) hr hq
      exact Nat.le_trans (by omega) (Nat.le_max_left _ _)
  · exact L.add (within_ofNat (lt_two_pow_width (Nat.le_max_right _ _))) hk hr hq

theorem runOptText (L : Logic @P) (s : Str) (k : Kind) (r Q) (hk : k.wf) (hq : After r [] Q) :
    P (Nxas.runOptText s) k r Q := by
  unfold Nxas.runOptText
  wp L
  · fin hq
  · fin hq

theorem attrOpen (L : Logic @P) (k : Kind) (r Q) (hq : After r [] Q) :
    P Nxas.attrOpen k r Q := by
  unfold Nxas.attrOpen
  wp L
  fin hq

theorem attrClose (L : Logic @P) (k : Kind) (r Q) (hq : After r [] Q) :
    P Nxas.attrClose k r Q := by
  unfold Nxas.attrClose
  wp L
  fin hq

theorem runXmadSigns (L : Logic @P) (k : Kind) (r Q) (hk : k.wf)
    (hr : ∀ i, inF [(48, 1), (49, 1)] i → r i) (hq : After r [(48, 1), (49, 1)] Q) :
    P Nxas.runXmadSigns k r Q := by
  have tail : ∀ k' r', k'.wf → (∀ i, r i → ¬ inF [(48, 1)] i → r' i) →
      P (Nxas.getKind >>= fun t2 => if t2.equal c!".S16" then addBits (1#64 <<< 49) >>= fun _ => Nxas.advance
        else if !t2.equal c!".U16" then Nxas.failTok "expected .S16 or .U16" else Nxas.advance) k' r' Q := by
    intro k' r' hk' hr'
    wp L
    · refine L.addField _ 49 1 _ _ _ (within_one _) ?_ ?_
      · intro i h1 h2
        refine hr' i (hr i ?_) ?_
        · simp only [inF_cons]; omega
        · simp only [inF_cons, inF_nil, or_false]; omega
      · wp L
        refine hq _ _ ‹_› ?_
        intro i hi hn
        simp only [inF_cons, inF_nil, or_false, not_or] at hn
        refine ⟨hr' i hi ?_, hn.2⟩
        simp only [inF_cons, inF_nil, or_false]
        exact hn.1
    · refine hq _ _ ‹_› ?_
      intro i hi hn
      simp only [inF_cons, inF_nil, or_false, not_or] at hn
      refine hr' i hi ?_
      simp only [inF_cons, inF_nil, or_false]
      exact hn.1
  unfold Nxas.runXmadSigns
  refine L.bind _ _ _ _ _ (L.getKind _ _ _ ?_)
  split
  · wp L
    fin hq
  · rename_i h
    have hn : k ≠ .semicolon := by
      rintro rfl
      exact h (by decide)
    refine L.bind _ _ _ _ _ (L.advance _ _ _ hn ?_)
    intro k' hk'
    dsimp only
    split
    · refine L.bind _ _ _ _ _ (L.addField _ 48 1 _ _ _ (within_one _) ?_ ?_)
      · intro i h1 h2
        refine hr i ?_
        simp only [inF_cons]; omega
      · refine tail _ _ hk' ?_
        intro i hi hn
        simp only [inF_cons, inF_nil, or_false] at hn
        exact ⟨hi, hn⟩
    · refine L.bind _ _ _ _ _ (L.pure _ _ _ _ ?_)
      exact tail _ _ hk' (fun i hi _ => hi)

theorem runIntFormat (L : Logic @P) (u s : List Str) (a b : Nat) (k : Kind) (r Q) (z : Nat)
    (hz : z = width (max (u.length - 1) (s.length - 1)))
    (hd : apartList [(a, z), (b, 1)] = true)
    (hr : ∀ i, inF [(a, z), (b, 1)] i → r i) (hq : After r [(a, z), (b, 1)] Q) :
    P (Nxas.runIntFormat u s a b) k r Q := by
  unfold Nxas.runIntFormat
  simp [apartList, Field.apart] at hd
  refine L.bind _ _ _ _ _ (L.findInTable _ _ _ _ _ _ ?_ ?_)
  · refine L.bind _ _ _ _ _ (L.findInTable _ _ _ _ _ _ ?_ ?_)
    · exact L.failTok _ _ _ _
    · intro i x hx hi
      dsimp only
      wp L
      use_field L b 1 hr
      · exact within_one _
      wp L
      use_field L a z hr
      · refine within_ofNat ?_
        rw [hz]
        exact lt_two_pow_width (Nat.le_trans (by omega) (Nat.le_max_right _ _))
      wp L
      fin hq
  · intro i x hx hi
    dsimp only
    wp L
    use_field L a z hr
    · refine within_ofNat ?_
      rw [hz]
      exact lt_two_pow_width (Nat.le_trans (by omega) (Nat.le_max_left _ _))
    wp L
    fin hq

theorem runPlainTable (L : Logic @P) (a : Nat) (t : List Str) (k : Kind) (r Q)
    (hr : ∀ i, inF [(a, width (t.length - 1))] i → r i)
    (hq : After r [(a, width (t.length - 1))] Q) : P (Nxas.runPlainTable a t) k r Q := by
  unfold Nxas.runPlainTable
  refine L.bind _ _ _ _ _ (L.findInTable _ _ _ _ _ _ ?_ ?_)
  · exact L.failTok _ _ _ _
  · intro i x hx hi
    exact L.addAdvance (within_ofNat (lt_two_pow_width (by omega))) (by ne_semi) hr hq

theorem runSelector (L : Logic @P) (a b c : Nat) (s t : List Str) (k : Kind) (r Q) (hk : k.wf)
    (hr : ∀ i, inF [(a, width (max (s.length - 1) (t.length - 1)))] i → r i)
    (hq : After r [(a, width (max (s.length - 1) (t.length - 1)))] Q) :
    P (Nxas.runSelector a b c s t) k r Q := by
  unfold Nxas.runSelector
  refine L.bind _ _ _ _ _ (L.getValue _ _ _ ?_)
  intro v
  dsimp only
  have h1 := lt_two_pow_width (Nat.le_max_left (s.length - 1) (t.length - 1))
  have h2 := lt_two_pow_width (Nat.le_max_right (s.length - 1) (t.length - 1))
  refine L.runDotTable _ _ _ _ _ _ hk _ ?_ (Nat.two_pow_pos _) hr hq
  split <;> omega

/-- Use several constants, one after the other. -/
theorem addAll (L : Logic @P) (l : List (BitVec 64)) (k : Kind) (r Q)
    (hd : apartList (l.flatMap setBits) = true)
    (hr : ∀ i, inF (l.flatMap setBits) i → r i)
    (hq : ∀ r', (∀ i, r i → ¬ inF (l.flatMap setBits) i → r' i) → Q () k r') :
    P (Nxas.addAll l) k r Q := by
  induction l generalizing r Q with
  | nil => exact L.pure _ _ _ _ (hq _ (fun i hi _ => hi))
  | cons b l ih =>
    rw [List.flatMap_cons] at hd hr hq
    rw [apartList_append] at hd
    unfold Nxas.addAll
    refine L.bind _ _ _ _ _ (L.addSet _ (inF (setBits b)) _ _ _ (fun i hi => (inF_setBits b i).2 hi) ?_ ?_)
    · intro i hi
      exact hr i ((inF_append _ _ _).2 (.inl hi))
    · refine ih _ _ hd.2.1 ?_ ?_
      · intro i hi
        refine ⟨hr i ((inF_append _ _ _).2 (.inr hi)), ?_⟩
        intro hb
        obtain ⟨f, hf, h1, h2⟩ := hb
        obtain ⟨g, hg, h3, h4⟩ := hi
        have := (Field.apart_iff _ _).1 (hd.2.2 f hf g hg)
        omega
      · intro r' hr'
        refine hq r' ?_
        intro i hi hn
        rw [inF_append, not_or] at hn
        exact hr' i ⟨hi, hn.1⟩ hn.2

theorem runExpect (L : Logic @P) (s : Str) (pre post : List (BitVec 64)) (k : Kind) (r Q)
    (hd : apartList ((pre ++ post).flatMap setBits) = true)
    (hr : ∀ i, inF ((pre ++ post).flatMap setBits) i → r i)
    (hq : After r ((pre ++ post).flatMap setBits) Q) : P (Nxas.runExpect s pre post) k r Q := by
  rw [List.flatMap_append] at hd hr hq
  rw [apartList_append] at hd
  unfold Nxas.runExpect
  wp L
  refine L.addAll pre _ _ _ hd.1 (fun i hi => hr i ((inF_append _ _ _).2 (.inl hi))) ?_
  intro r' hr'
  wp L
  refine L.addAll post _ _ _ hd.2.1 ?_ ?_
  · intro i hi
    refine hr' i (hr i ((inF_append _ _ _).2 (.inr hi))) ?_
    rintro ⟨f, hf, h1, h2⟩
    obtain ⟨g, hg, h3, h4⟩ := hi
    have := (Field.apart_iff _ _).1 (hd.2.2 f hf g hg)
    omega
  · intro r'' hr''
    refine hq _ _ ‹_› ?_
    intro i hi hn
    rw [inF_append, not_or] at hn
    exact hr'' i (hr' i hi hn.1) hn.2

/-- Narrow what is known after an operand to some of its fields. -/
theorem _root_.Nxas.After.sub {r : Nat → Prop} {fs gs : List Field} {Q : Unit → Kind → (Nat → Prop) → Prop}
    (h : After r fs Q) (hs : ∀ i, inF gs i → inF fs i) : After r gs Q :=
  fun k' r' hk' hr' => h k' r' hk' (fun i hi hn => hr' i hi (fun hg => hn (hs i hg)))

theorem runImmAttr (L : Logic @P) (k : Kind) (r Q) (hr : ∀ i, inF [(20, 10), (8, 8)] i → r i)
    (hq : After r [(20, 10), (8, 8)] Q) : P Nxas.runImmAttr k r Q := by
  unfold Nxas.runImmAttr
  refine L.bind _ _ _ _ _ (L.attrOpen _ _ _ ?_)
  intro k1 r1 hk1 hr1
  refine L.bind _ _ _ _ _ (L.runUint _ _ _ _ _ ?_ ?_)
  · intro i hi
    rw [show width (maxBits 10).toNat = 10 from by decide] at hi
    simp only [inF_cons, inF_nil, or_false] at hi
    exact hr1 i (hr i (by simp only [inF_cons]; omega)) (by simp [inF_nil])
  rw [show width (maxBits 10).toNat = 10 from by decide]
  intro k2 r2 hk2 hr2
  refine L.bind _ _ _ _ _ (L.addField _ 8 8 _ _ _ (within_shl (by decide)) ?_ ?_)
  · intro i h1 h2
    refine hr2 i (hr1 i (hr i (by simp only [inF_cons]; omega)) (by simp [inF_nil])) ?_
    simp only [inF_cons, inF_nil, or_false]; omega
  · refine L.attrClose _ _ _ ?_
    intro k3 r3 hk3 hr3
    refine hq _ _ hk3 ?_
    intro i hi hn
    simp only [inF_cons, inF_nil, or_false, not_or] at hn
    refine hr3 i ⟨hr2 i (hr1 i hi (by simp [inF_nil])) ?_, hn.2⟩ (by simp [inF_nil])
    simp only [inF_cons, inF_nil, or_false]
    exact hn.1

theorem runPhysAttr (L : Logic @P) (k : Kind) (r Q) (hr : ∀ i, inF [(8, 8), (64, 1)] i → r i)
    (hq : After r [(8, 8), (64, 1)] Q) : P Nxas.runPhysAttr k r Q := by
  unfold Nxas.runPhysAttr
  refine L.bind _ _ _ _ _ (L.attrOpen _ _ _ ?_)
  intro k1 r1 hk1 hr1
  refine L.bind _ _ _ _ _ (L.assembleGpr 8 _ _ _ hk1 (by decide) ?_ ?_)
  · intro i hi
    exact hr1 i (hr i hi) (by simp [inF_nil])
  intro k2 r2 hk2 hr2
  refine L.attrClose _ _ _ ?_
  intro k3 r3 hk3 hr3
  refine hq _ _ hk3 ?_
  intro i hi hn
  exact hr3 i (hr2 i (hr1 i hi (by simp [inF_nil])) hn) (by simp [inF_nil])

theorem runPatchAttr (L : Logic @P) (k : Kind) (r Q)
    (hr : ∀ i, inF [(8, 8), (64, 1), (20, 11)] i → r i)
    (hq : After r [(8, 8), (64, 1), (20, 11)] Q) : P Nxas.runPatchAttr k r Q := by
  unfold Nxas.runPatchAttr
  refine L.bind _ _ _ _ _ (L.attrOpen _ _ _ ?_)
  intro k1 r1 hk1 hr1
  refine L.bind _ _ _ _ _ (L.assembleGpr 8 _ _ _ hk1 (by decide) ?_ ?_)
  · intro i hi
    refine hr1 i (hr i ?_) (by simp [inF_nil])
    rw [show reuseFields 8 = [(64, 1)] from rfl] at hi
    simp only [inF_cons, inF_nil, or_false] at hi ⊢
    omega
  rw [show reuseFields 8 = [(64, 1)] from rfl]
  intro k2 r2 hk2 hr2
  have tail : ∀ k', k'.wf → P (Nxas.runSint 11 20 >>= fun _ => Nxas.attrClose) k' r2 Q := by
    intro k' hk'
    refine L.bind _ _ _ _ _ (L.runSint _ _ _ _ _ ?_ ?_)
    · intro i hi
      simp only [inF_cons, inF_nil, or_false] at hi
      refine hr2 i (hr1 i (hr i ?_) (by simp [inF_nil])) ?_
      · simp only [inF_cons]; omega
      · simp only [inF_cons, inF_nil, or_false]; omega
    intro k3 r3 hk3 hr3
    refine L.attrClose _ _ _ ?_
    intro k4 r4 hk4 hr4
    refine hq _ _ hk4 ?_
    intro i hi hn
    simp only [inF_cons, inF_nil, or_false, not_or] at hn
    refine hr4 i (hr3 i (hr2 i (hr1 i hi (by simp [inF_nil])) ?_) ?_) (by simp [inF_nil])
    · simp only [inF_cons, inF_nil, or_false]; omega
    · simp only [inF_cons, inF_nil, or_false]; omega
  refine L.bind _ _ _ _ _ (L.getKind _ _ _ ?_)
  split
  · refine L.bind _ _ _ _ _ (L.advance _ _ _ (by ne_semi) ?_)
    exact fun k' hk' => tail k' hk'
  · exact L.bind _ _ _ _ _ (L.pure _ _ _ _ (tail _ hk2))

theorem runF2fRounding (L : Logic @P) (k : Kind) (r Q) (hk : k.wf)
    (hr : ∀ i, inF [(39, 2), (42, 1)] i → r i) (hq : After r [(39, 2), (42, 1)] Q) :
    P Nxas.runF2fRounding k r Q := by
  unfold Nxas.runF2fRounding
  refine L.bind _ _ _ _ _ (L.getValue _ _ _ ?_)
  intro v
  dsimp only
  split
  · refine L.bind _ _ _ _ _ (L.getKind _ _ _ ?_)
    split
    · rename_i b hb
      have h : k ≠ .semicolon ∧ b ∈ [8#64, 9#64, 10#64, 11#64, 3#64] := by
        repeat' split at hb
        all_goals first
          | (cases hb; refine ⟨?_, by decide⟩; ne_semi)
          | cases hb
      refine L.bind _ _ _ _ _ (L.advance _ _ _ h.1 ?_)
      intro k' hk'
      refine L.addSet _ (inF [(39, 2), (42, 1)]) _ _ _ ?_ hr ?_
      · intro i hi
        have hw : b.toNat < 2 ^ 4 ∧ (b <<< 39).getLsbD 41 = false := by
          have := h.2
          simp only [List.mem_cons, List.not_mem_nil, or_false] at this
          rcases this with rfl | rfl | rfl | rfl | rfl <;> decide
        have h1 := within_shl (a := 39) hw.1 i hi
        have h2 : i ≠ 41 := by
          rintro rfl
          rw [hw.2] at hi
          simp at hi
        simp only [inF_cons, inF_nil, or_false]
        omega
      · exact hq _ _ hk' (fun i hi hn => ⟨hi, hn⟩)
    · refine L.addSet _ (inF [(39, 2), (42, 1)]) _ _ _ ?_ hr ?_
      · intro i hi
        simp at hi
      · exact hq _ _ hk (fun i hi hn => ⟨hi, hn⟩)
  · refine L.runDotTable _ _ _ _ _ _ hk 2 (by decide) (by decide) ?_ ?_
    · intro i hi
      refine hr i ?_
      simp only [inF_cons, inF_nil, or_false] at hi ⊢
      exact .inl hi
    · refine hq.sub ?_
      intro i hi
      simp only [inF_cons, inF_nil, or_false] at hi ⊢
      exact .inl hi

theorem runLdcAddress (L : Logic @P) (k : Kind) (r Q)
    (hr : ∀ i, inF [(36, 5), (8, 8), (64, 1), (20, 16)] i → r i)
    (hq : After r [(36, 5), (8, 8), (64, 1), (20, 16)] Q) : P Nxas.runLdcAddress k r Q := by
  unfold Nxas.runLdcAddress
  wp L
  rename_i h
  refine L.addField _ 36 5 _ _ _ ?_ ?_ ?_
  · unfold maxBits at h
    exact within_u64 (by omega) (by omega)
  · intro i h1 h2
    exact hr i (by simp only [inF_cons]; omega)
  wp L
  refine L.runMemAddress true 20 16 0 _ _ _ (by decide) ?_ ?_
  · intro i hi
    simp only [reduceIte, inF_cons, inF_nil, or_false] at hi
    refine ⟨hr i ?_, by omega⟩
    simp only [inF_cons]; omega
  · intro k' r' hk' hr'
    refine hq _ _ hk' ?_
    intro i hi hn
    simp only [inF_cons, inF_nil, or_false, not_or] at hn
    refine hr' i ⟨hi, hn.1⟩ ?_
    simp only [reduceIte, inF_cons, inF_nil, or_false]; omega

theorem runS2r (L : Logic @P) (t : List Str) (k : Kind) (r Q)
    (hr : ∀ i, inF [(20, width (max (t.length - 1) 39))] i → r i)
    (hq : After r [(20, width (max (t.length - 1) 39))] Q) : P (Nxas.runS2r t) k r Q := by
  have c : ∀ n ≤ 39, Within (BitVec.ofNat 64 n <<< 20) 20 (width (max (t.length - 1) 39)) :=
    fun n hn => within_ofNat (lt_two_pow_width (Nat.le_trans hn (Nat.le_max_right _ _)))
  unfold Nxas.runS2r
  refine L.bind _ _ _ _ _ (L.getKind _ _ _ ?_)
  split
  · refine L.bind _ _ _ _ _ (L.advance _ _ _ (by ne_semi) ?_)
    intro k' hk'
    refine L.bind _ _ _ _ _ (L.getKind _ _ _ ?_)
    repeat' split
    · exact L.advanceAdd (c 33 (by omega)) (by ne_semi) hr hq
    · exact L.advanceAdd (c 34 (by omega)) (by ne_semi) hr hq
    · exact L.advanceAdd (c 35 (by omega)) (by ne_semi) hr hq
    · exact L.add (c 32 (by omega)) hk' hr hq
  · split
    · refine L.bind _ _ _ _ _ (L.advance _ _ _ (by ne_semi) ?_)
      intro k' hk'
      refine L.bind _ _ _ _ _ (L.getKind _ _ _ ?_)
      repeat' split
      · exact L.advanceAdd (c 37 (by omega)) (by ne_semi) hr hq
      · exact L.advanceAdd (c 38 (by omega)) (by ne_semi) hr hq
      · exact L.advanceAdd (c 39 (by omega)) (by ne_semi) hr hq
      · exact L.failTok _ _ _ _
    · refine L.bind _ _ _ _ _ (L.findInTable _ _ _ _ _ _ ?_ ?_)
      · dsimp only
        split
        · exact L.failTok _ _ _ _
        · exact L.ub _ _ _ _ (by decide)
      · intro i x hx hi
        refine L.advanceAdd (within_ofNat (lt_two_pow_width ?_)) (by ne_semi) hr hq
        exact Nat.le_trans (by omega) (Nat.le_max_left _ _)

theorem runLdgSize (L : Logic @P) (k : Kind) (r Q) (hk : k.wf)
    (hr : ∀ i, inF [(48, 3)] i → r i) (hq : After r [(48, 3)] Q) : P Nxas.runLdgSize k r Q := by
  unfold Nxas.runLdgSize
  refine L.bind _ _ _ _ _ (L.findInTable _ _ _ _ _ _ ?_ ?_)
  · exact L.add (within_shl (by decide)) hk hr hq
  · intro i x hx hi
    simp only [List.length_cons, List.length_nil] at hi
    dsimp only
    refine L.bind _ _ _ _ _ (L.advance _ _ _ (by ne_semi) ?_)
    intro k' hk'
    wp L
    all_goals exact L.add (within_ofNat (by omega)) ‹_› hr hq

theorem runAtomicSize (L : Logic @P) (a : Nat) (k : Kind) (r Q) (hk : k.wf)
    (hr : ∀ i, inF [(a, 3)] i → r i) (hq : After r [(a, 3)] Q) : P (Nxas.runAtomicSize a) k r Q := by
  unfold Nxas.runAtomicSize
  refine L.bind _ _ _ _ _ (L.findInTable _ _ _ _ _ _ ?_ ?_)
  · exact L.add (within_shl (by decide)) hk hr hq
  · intro i x hx hi
    simp only [List.length_cons, List.length_nil] at hi
    dsimp only
    refine L.bind _ _ _ _ _ (L.advance _ _ _ (by ne_semi) ?_)
    intro k' hk'
    wp L
    all_goals exact L.add (within_ofNat (by omega)) ‹_› hr hq

theorem runSrcFormat (L : Logic @P) (a b : Nat) (k : Kind) (r Q) (hk : k.wf)
    (hd : apartList [(a, 2), (b, 1)] = true)
    (hr : ∀ i, inF [(a, 2), (b, 1)] i → r i) (hq : After r [(a, 2), (b, 1)] Q) :
    P (Nxas.runSrcFormat a b) k r Q := by
  simp [apartList, Field.apart] at hd
  have two : ∀ (x y : BitVec 64) k', x.toNat < 4 → y.toNat < 2 → k'.wf →
      P (addBits (x <<< a) >>= fun _ => addBits (y <<< b)) k' r Q := by
    intro x y k' hx hy hk'
    wp L
    use_field L a 2 hr
    · exact within_shl hx
    use_field L b 1 hr
    · exact within_shl hy
    fin hq
  unfold Nxas.runSrcFormat
  have small : ∀ i, i < 4 → (BitVec.ofNat 64 i).toNat < 4 := by
    intro i hi
    rw [BitVec.toNat_ofNat]
    omega
  refine L.bind _ _ _ _ _ (L.findInTable _ _ _ _ _ _ ?_ ?_)
  · refine L.bind _ _ _ _ _ (L.findInTable _ _ _ _ _ _ ?_ ?_)
    · exact two _ _ _ (by decide) (by decide) hk
    · intro i x hx hi
      dsimp only
      refine L.bind _ _ _ _ _ (L.advance _ _ _ (by ne_semi) ?_)
      intro k' hk'
      exact two _ _ _ (small i hi) (by decide) hk'
  · intro i x hx hi
    dsimp only
    refine L.bind _ _ _ _ _ (L.advance _ _ _ (by ne_semi) ?_)
    intro k' hk'
    exact two _ _ _ (small i hi) (by decide) hk'

theorem runTexType (L : Logic @P) (a : Nat) (k : Kind) (r Q)
    (hr : ∀ i, inF [(a, 3)] i → r i) (hq : After r [(a, 3)] Q) : P (Nxas.runTexType a) k r Q := by
  unfold Nxas.runTexType
  refine L.bind _ _ _ _ _ (L.findInTable _ _ _ _ _ _ ?_ ?_)
  · exact L.failTok _ _ _ _
  · intro i x hx hi
    exact L.advanceAdd (within_ofNat hi) (by ne_semi) hr hq

theorem runZero (L : Logic @P) (k : Kind) (r Q) (hq : After r [] Q) : P Nxas.runZero k r Q := by
  unfold Nxas.runZero
  refine L.bind _ _ _ _ _ (L.getKind _ _ _ ?_)
  split
  · exact L.failTok _ _ _ _
  · rename_i h
    have : k = .imm 0 := Decidable.of_not_not h
    refine L.advance _ _ _ (by ne_semi) ?_
    intro k' hk'
    fin hq

theorem runTexsMode (L : Logic @P) (a : Nat) (k : Kind) (r Q) (hk : k.wf)
    (hr : ∀ i, inF [(a, 3)] i → r i) (hq : After r [(a, 3)] Q) : P (Nxas.runTexsMode a) k r Q := by
  have tail : ∀ (lod : BitVec 64) k', lod ∈ [0#64, 1#64, 2#64] → k'.wf →
      P (Nxas.getKind >>= fun t2 => (if t2.equal c!".DC" then Nxas.advance >>= fun _ => M.pure 4#64
        else M.pure 0#64) >>= fun dc => addBits ((dc ||| lod) <<< a)) k' r Q := by
    intro lod k' hl hk'
    have h4 : (4#64 ||| lod).toNat < 8 := by
      simp only [List.mem_cons, List.not_mem_nil, or_false] at hl
      rcases hl with rfl | rfl | rfl <;> decide
    have h0 : (0#64 ||| lod).toNat < 8 := by
      simp only [List.mem_cons, List.not_mem_nil, or_false] at hl
      rcases hl with rfl | rfl | rfl <;> decide
    wp L
    · exact L.add (within_shl h4) ‹_› hr hq
    · exact L.add (within_shl h0) ‹_› hr hq
  unfold Nxas.runTexsMode
  refine L.bind _ _ _ _ _ (L.getKind _ _ _ (L.bind _ _ _ _ _ ?_))
  split
  · refine L.bind _ _ _ _ _ (L.advance _ _ _ (by ne_semi) ?_)
    intro k' hk'
    exact L.pure _ _ _ _ (tail _ _ (by simp) hk')
  · split
    · refine L.bind _ _ _ _ _ (L.advance _ _ _ (by ne_semi) ?_)
      intro k' hk'
      exact L.pure _ _ _ _ (tail _ _ (by simp) hk')
    · exact L.pure _ _ _ _ (tail _ _ (by simp) hk)

theorem runTexsSwizzle (L : Logic @P) (k : Kind) (r Q)
    (hr : ∀ i, inF [(50, 3)] i → r i) (hq : After r [(50, 3)] Q) : P Nxas.runTexsSwizzle k r Q := by
  unfold Nxas.runTexsSwizzle
  refine L.bind _ _ _ _ _ (L.getValue _ _ _ ?_)
  intro v
  refine L.bind _ _ _ _ _ (L.findInTable _ _ _ _ _ _ ?_ ?_)
  · exact L.failTok _ _ _ _
  · intro i x hx hi
    have : i < 8 := by
      split at hi
      · exact hi
      · exact Nat.lt_trans hi (by decide)
    exact L.addAdvance (within_ofNat this) (by ne_semi) hr hq

/-- Every operand parser follows the rules, except branch targets (which read the labels and the
    program counter) and the three operands that clear bits. -/
theorem run (L : Logic @P) (o : Operand) (hp : o.plain = true) (hd : apartList o.fields = true)
    (k : Kind) (r Q) (hk : k.wf) (hr : ∀ i, inF o.fields i → r i) (hq : After r o.fields Q) :
    P o.run k r Q := by
  induction o generalizing k r Q with
  | flag s a => exact L.runFlag s a _ _ _ hk hr hq
  | uint m a => exact L.runUint m a _ _ _ hr hq
  | sint b a => exact L.runSint b a _ _ _ hr hq
  | dotTable d a t =>
    refine L.runDotTable d a t _ _ _ hk _ ?_ (lt_two_pow_width (Nat.le_max_right _ _)) hr hq
    have := lt_two_pow_width (Nat.le_max_left (t.length - 1) (d.getD 0))
    omega
  | uimmExtended => exact L.runUimmExtended _ _ _ hr hq
  | comma => exact L.runComma _ _ _ hq
  | label => simp [Operand.plain, Operand.leaf] at hp
  | gpr a => exact L.assembleGpr a _ _ _ hk ((apartList_cons _ _).1 hd).1 hr hq
  | mirrorGpr a => simp [Operand.plain, Operand.leaf] at hp
  | cbuf => exact L.runCbuf _ _ _ hr hq
  | imm20 => exact L.runImm20 _ _ _ hr hq
  | fimm w => exact L.runFimm w _ _ _ hk hr hq
  | dimm20 => exact L.runDimm20 _ _ _ hk hr hq
  | himm w o n => exact L.runHimm w o n _ _ _ hk _ rfl ((apartList_cons _ _).1 hd).1 hr hq
  | bop a => exact L.runBop a _ _ _ hr hq
  | pred a n => exact L.runPred a n _ _ _ hk hr hq
  | invertedPred a => exact L.runInvertedPred a _ _ _ hk hr hq
  | neg a => exact L.runSign .minus (by simp) a _ _ _ hk hr hq
  | tilde a => exact L.runSign .tilde (by simp) a _ _ _ hk hr hq
  | abs a inner ih =>
    have hd' := (apartList_cons _ _).1 hd
    exact L.runAbs a inner.run inner.fields (fun k r Q hk hr hq => ih hp hd'.2 k r Q hk hr hq) hd'.1
      _ _ _ hk hr hq
  | po a b => exact L.runPo a b _ _ _ hk hr hq
  | defaultRz a => exact L.add (within_shl (by decide)) hk hr hq
  | memAddress i a s j => exact L.runMemAddress i a s j _ _ _ hd hr hq
  | ccTests a t => exact L.runCcTests a t _ _ _ hk hr hq
  | expect s pre post => exact L.runExpect s pre post _ _ _ hd hr hq
  | optText s => exact L.runOptText s _ _ _ hk hq
  | immAttr => exact L.runImmAttr _ _ _ hr hq
  | patchAttr => exact L.runPatchAttr _ _ _ hr hq
  | physAttr => exact L.runPhysAttr _ _ _ hr hq
  | xmadSigns => exact L.runXmadSigns _ _ _ hk hr hq
  | f2fRounding => exact L.runF2fRounding _ _ _ hk hr hq
  | intFormat u s a b => exact L.runIntFormat u s a b _ _ _ _ rfl hd hr hq
  | plainTable a t => exact L.runPlainTable a t _ _ _ hr hq
  | selector a t c s b => exact L.runSelector a t c s b _ _ _ hk hr hq
  | ldcAddress => exact L.runLdcAddress _ _ _ hr hq
  | s2r t => exact L.runS2r t _ _ _ hr hq
  | ldgSize => exact L.runLdgSize _ _ _ hk hr hq
  | atomicSize a => exact L.runAtomicSize a _ _ _ hk hr hq
  | srcFormat a s => exact L.runSrcFormat a s _ _ _ hk hd hr hq
  | immFormat s => exact L.runDotTable _ _ _ _ _ _ hk 1 (by decide) (by decide) hr hq
  | texType a => exact L.runTexType a _ _ _ hr hq
  | zero => exact L.runZero _ _ _ hq
  | texsMode a => exact L.runTexsMode a _ _ _ hk hr hq
  | tldsType a => simp [Operand.plain, Operand.leaf] at hp
  | texsType a => simp [Operand.plain, Operand.leaf] at hp
  | texsSwizzle => exact L.runTexsSwizzle _ _ _ hr hq

end Logic

end Nxas
