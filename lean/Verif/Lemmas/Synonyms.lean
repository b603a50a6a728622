import Verif.Lemmas.Distinct
import Mathlib.Tactic.Linarith
import Verif.Spec.Synonyms
/-
The bits of an operand determine its tokens up to synonyms.
-/

namespace Nxas

open Spec

/-- The fields are inside the word or reuse flags, and apart. -/
def Operand.readable : Operand → Bool
  | .abs a inner => decide (a + 1 ≤ 64) && inner.fields.all (Field.apart (a, 1)) && inner.readable &&
    match inner with
    | .gpr _ | .cbuf => true
    | _ => false
  | o => apartList o.fields && o.flagless && o.inside &&
    match o with
    | .s2r t => decide (t.length ≤ 256) && [32, 33, 34, 35, 37, 38, 39].all fun i => t[i]? == some []
    | .tldsType _ | .texsType _ => false
    | _ => true

/-- The bits that an operand shares with no other operand in most rows: bit 39 of the extended immediate belongs to a
    register. -/
def Operand.own : Operand → List Field
  | .uimmExtended => [(20, 19), (56, 1)]
  | .abs a inner => (a, 1) :: inner.own
  | o => o.fields

/-- The bits of the word of the operands before that an operand looks at. -/
def Operand.looks : Operand → List Field
  | .f2fRounding => [(8, 2), (10, 2)]
  | .selector _ ta _ _ _ => [(ta, 3)]
  | .texsSwizzle => [(28, 8)]
  | .mirrorGpr a => [(a, 8)]
  | .abs _ inner => inner.looks
  | _ => []

theorem field_inj {a w n n' : Nat} (ha : a + w ≤ 64) (hn : n < 2 ^ w) (hn' : n' < 2 ^ w)
    (h : bitsAt (field a n) a w = bitsAt (field a n') a w) : n = n' := by
  rwa [bitsAt_field hn ha, bitsAt_field hn' ha] at h

theorem _root_.Nxas.Spec.Entry.lt {p : Str} {t : List Str} {k : Kind} {i : Nat} (h : Entry p t k i) : i < t.length := by
  obtain ⟨_, -, h, -⟩ := h
  exact (List.getElem?_eq_some_iff.1 h).1

theorem _root_.Nxas.Spec.Entry.token {p : Str} {t : List Str} {k k' : Kind} {i : Nat} (h : Entry p t k i) (h' : Entry p t k' i) : k = k' := by
  obtain ⟨n, rfl, h, -⟩ := h
  obtain ⟨n', rfl, h', -⟩ := h'
  rw [h] at h'
  cases h'
  rfl

theorem _root_.Nxas.Spec.Entry.name {t : List Str} {k : Kind} {i : Nat} (h : Entry c!"." t k i) : nameTokens t i = [k] := by
  obtain ⟨n, rfl, h, -⟩ := h
  simp [nameTokens, h]

theorem meant_nil (d : List Kind) : meant d [] = d := rfl
theorem meant_cons (d : List Kind) (k : Kind) (ks : List Kind) : meant d (k :: ks) = k :: ks := rfl

theorem modifier_same {d : Option Nat} {a w : Nat} {t : List Str} (ha : a + w ≤ 64) (hw : max (t.length - 1) (d.getD 0) < 2 ^ w)
    {ks ks' : List Kind} {k k' : Kind} {b b' : BitVec 64} {r r' : BitVec 32} (h : modifier d a t ks k b r)
    (h' : modifier d a t ks' k' b' r') (hb : bitsAt b a w = bitsAt b' a w) :
    meant ((d.map (nameTokens t)).getD []) ks = meant ((d.map (nameTokens t)).getD []) ks' := by
  obtain ⟨-, ⟨k, i, rfl, he, rfl⟩ | ⟨x, rfl, rfl, -, rfl⟩⟩ := h <;>
    obtain ⟨-, ⟨k', i', rfl, he', rfl⟩ | ⟨x', hx', rfl, -, rfl⟩⟩ := h'
  · have h1 := he.lt
    have h2 := he'.lt
    obtain rfl := field_inj ha (by omega) (by omega) hb
    rw [he.token he']
  · subst hx'
    have h1 := he.lt
    simp only [Option.getD_some] at hw
    obtain rfl := field_inj ha (by omega) (by omega) hb
    simp [meant, he.name]
  · have h1 := he'.lt
    simp only [Option.getD_some] at hw
    obtain rfl := field_inj ha (by omega) (by omega) hb
    simp [meant, he'.name]
  · rfl

theorem optWord_same {s : Str} {a : Nat} {x : BitVec 64} (hx : bitsAt x a 1 = 1)
    {ks ks' : List Kind} {k k' : Kind} {b b' : BitVec 64} {r r' : BitVec 32} (h : optWord s x ks k b r)
    (h' : optWord s x ks' k' b' r') (hb : bitsAt b a 1 = bitsAt b' a 1) : ks = ks' := by
  obtain ⟨-, ⟨rfl, rfl⟩ | ⟨rfl, -, rfl⟩⟩ := h <;> obtain ⟨-, ⟨rfl, rfl⟩ | ⟨rfl, -, rfl⟩⟩ := h'
  · rfl
  · rw [hx, bitsAt_zero] at hb; cases hb
  · rw [hx, bitsAt_zero] at hb; cases hb
  · rfl

theorem reuse_same {a : Nat} {ks ks' : List Kind} {k k' : Kind} {r r' : BitVec 32} (h : reuse a ks k r) (h' : reuse a ks' k' r')
    (hr : ∀ q, (64 + q, 1) ∈ reuseFields a → r.getLsbD q = r'.getLsbD q) : ks = ks' := by
  by_cases hf : reuseFields a = []
  · have : reuseFlag a = none := by
      unfold reuseFields at hf
      unfold reuseFlag
      split <;> simp_all
    rcases h with ⟨-, h⟩ | ⟨rfl, -⟩
    · rw [this] at h; cases h
    · rcases h' with ⟨-, h'⟩ | ⟨rfl, -⟩
      · rw [this] at h'; cases h'
      · rfl
  · obtain ⟨q, hq⟩ : ∃ q, (64 + q, 1) ∈ reuseFields a := by
      unfold reuseFields at hf ⊢
      split
      · exact ⟨0, by simp⟩
      · split
        · exact ⟨1, by simp⟩
        · split
          · exact ⟨2, by simp⟩
          · simp_all
    have h1 := reuse_flag h (q := q) ⟨_, hq, by simp, by simp⟩
    have h2 := reuse_flag h' (q := q) ⟨_, hq, by simp, by simp⟩
    rw [hr q hq, h2] at h1
    rcases reuse_rest h with rfl | rfl <;> rcases reuse_rest h' with rfl | rfl <;> simp at h1 ⊢

theorem shr_range {lo hi y : Int} {shr : Nat} (hlo : lo ≤ 0) (hhi : 0 < hi) (h1 : lo ≤ y) (h2 : y < hi) :
    lo ≤ y / 2 ^ shr ∧ y / 2 ^ shr < hi := by
  have hp : (1 : Int) ≤ 2 ^ shr := Int.pow_pos (by omega)
  obtain ⟨P, hP⟩ : ∃ P : Int, 2 ^ shr = P := ⟨_, rfl⟩
  rw [hP] at hp ⊢
  constructor
  · rw [Int.le_ediv_iff_mul_le (by omega)]
    nlinarith
  · rw [Int.ediv_lt_iff_lt_mul (by omega)]
    nlinarith

theorem memory_text {i : Bool} {a w shr : Nat} (ha : 16 ≤ a ∧ 0 < w ∧ a + w ≤ 64) {ks : List Kind} {k : Kind}
    {b : BitVec 64} {r : BitVec 32} (h : memory i a w shr ks k b r) (hp : ∀ k ∈ ks, k.proper) :
    ∃ n y u, AddressText n y u ks ∧ bitsAt b 8 8 = n ∧ u = r.getLsbD 0 ∧
      (if n = 255 then 0 ≤ y ∧ y < 2 ^ w else -(2 ^ (w - 1)) ≤ y ∧ y < 2 ^ (w - 1)) ∧
      (i = false → y = 0) ∧ (i = true → bitsAt b a w = (y / 2 ^ shr % 2 ^ w).toNat) := by
  have hfl := memory_flag h
  obtain ⟨n, base, off, rfl, hbase, hoff⟩ := h
  have hn : n ≤ 255 := by
    rcases hbase with ⟨rest, rfl, -⟩ | ⟨-, rfl, -⟩
    · exact (hp (.reg n) (by simp)).1
    · omega
  have hw : (0 : Int) < 2 ^ (w - 1) := Int.pow_pos (by omega)
  have hw' : (0 : Int) < 2 ^ w := Int.pow_pos (by omega)
  obtain ⟨y, ho, hy, hb, hi0, hi1⟩ : ∃ y, (off = [] ∧ y = 0 ∨ off = [.imm y]) ∧
      (if n = 255 then 0 ≤ y ∧ y < 2 ^ w else -(2 ^ (w - 1)) ≤ y ∧ y < 2 ^ (w - 1)) ∧ bitsAt b 8 8 = n ∧
      (i = false → y = 0) ∧ (i = true → bitsAt b a w = (y / 2 ^ shr % 2 ^ w).toNat) := by
    rcases hoff with ⟨rfl, rfl⟩ | ⟨rfl, y, rfl, hy, rfl⟩
    · refine ⟨0, .inl ⟨rfl, rfl⟩, ?_, bitsAt_field (by omega) (by omega), fun _ => rfl, fun _ => ?_⟩
      · split <;> omega
      · rw [bitsAt_apart (u := 8) (by omega) (by omega)]
        simp
    · refine ⟨y, .inr rfl, hy, ?_, by simp, fun _ => ?_⟩
      · rw [bitsAt_or, bitsAt_field (by omega) (by omega), sfield, bitsAt_apart (u := w) (sfield_lt _ _) (by omega)]
        simp
      · rw [bitsAt_or, bitsAt_apart (u := 8) (by omega) (by omega), sfield, bitsAt_field (sfield_lt _ _) (by omega)]
        simp
  have hu : ∀ u : Bool, (u = true ↔ Kind.ident c!".reuse" ∈ Kind.lbracket :: (base ++ (off ++ [Kind.rbracket]))) →
      u = r.getLsbD 0 := by
    intro u hu
    rw [← hfl] at hu
    exact Bool.eq_iff_iff.2 hu
  refine ⟨n, y, _, ?_, hb, rfl, hy, hi0, hi1⟩
  rcases hbase with ⟨rest, rfl, hr⟩ | ⟨rfl, rfl, rfl⟩
  · rcases reuse_rest hr with rfl | rfl
    · rw [← hu false (by rcases ho with ⟨rfl, -⟩ | rfl <;> simp)]
      rcases ho with ⟨rfl, rfl⟩ | rfl
      · exact .reg
      · exact .both
    · rw [← hu true (by rcases ho with ⟨rfl, -⟩ | rfl <;> simp)]
      rcases ho with ⟨rfl, rfl⟩ | rfl
      · exact .regReuse
      · exact .bothReuse
  · rcases ho with ⟨rfl, rfl⟩ | rfl
    · exact .none
    · exact .offset

theorem memory_same {i : Bool} {a w shr : Nat} (ha : 16 ≤ a ∧ 0 < w ∧ a + w ≤ 64) {ks ks' : List Kind} {k k' : Kind}
    {b b' : BitVec 64} {r r' : BitVec 32} (h : memory i a w shr ks k b r) (h' : memory i a w shr ks' k' b' r')
    (hp : ∀ k ∈ ks, k.proper) (hp' : ∀ k ∈ ks', k.proper)
    (hb : bitsAt b 8 8 = bitsAt b' 8 8) (hb2 : i = true → bitsAt b a w = bitsAt b' a w)
    (hr : r.getLsbD 0 = r'.getLsbD 0) : sameAddress shr ks ks' := by
  obtain ⟨n, y, u, h1, h2, rfl, h4, h5, h6⟩ := memory_text ha h hp
  obtain ⟨n', y', u', h1', h2', rfl, h4', h5', h6'⟩ := memory_text ha h' hp'
  obtain rfl : n = n' := by omega
  rw [hr] at h1
  refine ⟨n, y, y', _, h1, h1', ?_⟩
  cases i with
  | false => rw [h5 rfl, h5' rfl]
  | true =>
    have h7 := hb2 rfl
    rw [h6 rfl, h6' rfl] at h7
    have hw : (0 : Int) < 2 ^ (w - 1) := Int.pow_pos (by omega)
    have hw' : (0 : Int) < 2 ^ w := Int.pow_pos (by omega)
    split at h4
    · rename_i hn
      rw [if_pos hn] at h4'
      have h8 := shr_range (shr := shr) (by omega) hw' h4.1 h4.2
      have h9 := shr_range (shr := shr) (by omega) hw' h4'.1 h4'.2
      rw [Int.emod_eq_of_lt h8.1 h8.2, Int.emod_eq_of_lt h9.1 h9.2] at h7
      omega
    · rename_i hn
      rw [if_neg hn] at h4'
      have h8 := shr_range (shr := shr) (by omega) hw h4.1 h4.2
      have h9 := shr_range (shr := shr) (by omega) hw h4'.1 h4'.2
      rw [← signedOf_emod ha.2.1 h8.1 h8.2, h7, signedOf_emod ha.2.1 h9.1 h9.2]

/-- Two numbers in two's complement. -/
theorem sfield_inj {a w : Nat} {x y : Int} (ha : a + w ≤ 64) (hw : 0 < w) (h1 : -(2 ^ (w - 1)) ≤ x) (h2 : x < 2 ^ (w - 1))
    (h3 : -(2 ^ (w - 1)) ≤ y) (h4 : y < 2 ^ (w - 1)) (h : bitsAt (sfield a w x) a w = bitsAt (sfield a w y) a w) : x = y := by
  rw [sfield, sfield, bitsAt_field (sfield_lt _ _) ha, bitsAt_field (sfield_lt _ _) ha] at h
  rw [← signedOf_emod hw h1 h2, h, signedOf_emod hw h3 h4]

theorem bit_inj {a b : Bool} (h : bit a = bit b) : a = b := by
  cases a <;> cases b <;> simp_all [bit]

theorem bit_lt (a : Bool) : bit a < 2 ^ 1 := by cases a <;> simp [bit]

/-- Two optional tokens. -/
theorem bits_pair {a u c w n m n' m' : Nat} (ha : a + u ≤ 64) (hc : c + w ≤ 64) (hn : n < 2 ^ u) (hm : m < 2 ^ w) (hn' : n' < 2 ^ u)
    (hm' : m' < 2 ^ w) (hap : a + u ≤ c ∨ c + w ≤ a)
    (h1 : bitsAt (field a n ||| field c m) a u = bitsAt (field a n' ||| field c m') a u)
    (h2 : bitsAt (field a n ||| field c m) c w = bitsAt (field a n' ||| field c m') c w) : n = n' ∧ m = m' := by
  rw [bitsAt_or, bitsAt_or, bitsAt_field hn ha, bitsAt_field hn' ha, bitsAt_apart hm (by omega), bitsAt_apart hm' (by omega)] at h1
  rw [bitsAt_or, bitsAt_or, bitsAt_field hm hc, bitsAt_field hm' hc, bitsAt_apart hn (by omega), bitsAt_apart hn' (by omega)] at h2
  simpa using And.intro h1 h2

theorem extended_bits {x : Nat} (hx : x ≤ 2 ^ 20) {b : BitVec 64}
    (hb : b = if x < 2 ^ 19 then field 20 x else field 56 1 ||| field 20 (x - 2 ^ 19)) :
    bitsAt b 20 19 = x % 2 ^ 19 ∧ bitsAt b 56 1 = x / 2 ^ 19 - x / 2 ^ 20 := by
  have hmod : ∀ n, n < 2 ^ 20 → bitsAt (field 20 n) 20 19 = n % 2 ^ 19 := by
    intro n hn
    simp only [bitsAt, field, BitVec.toNat_ofNat]
    omega
  split at hb
  · rename_i hlt
    subst hb
    rw [hmod x (by omega), bitsAt_apart (u := 19) hlt (by omega)]
    omega
  · rename_i hge
    subst hb
    rw [bitsAt_or, bitsAt_or, hmod _ (by omega), bitsAt_apart (u := 1) (by omega) (by omega),
      bitsAt_field (w := 1) (by omega) (by omega), bitsAt_apart (u := 20) (by omega) (by omega)]
    simp
    omega

theorem single_bits {ks : List Kind} {neg : Bool} {x : BitVec 32}
    (h : FloatText 32 id f32OfInt 0x7FC00000 0x7F800000 ks neg x) :
    (x.toNat ^^^ 2 ^ 31 * bit neg) % 2 ^ 31 = x.toNat % 2 ^ 31 ∧ (x.toNat ^^^ 2 ^ 31 * bit neg) / 2 ^ 31 = bit (x.msb ^^ neg) ∧
      x.toNat / 2 ^ 31 ^^^ bit neg = bit (x.msb ^^ neg) := by
  cases neg with
  | false =>
    have := x.isLt
    simp only [bit, Bool.false_eq_true, if_false, Nat.mul_zero, Nat.xor_zero, Bool.xor_false, BitVec.msb_eq_decide, decide_eq_true_eq, true_and]
    split <;> omega
  | true =>
    have : x = 0x7FC00000 ∨ x = 0x7F800000 := by
      cases h with
      | minus h => exact h.imp And.right And.right
    rcases this with rfl | rfl <;> decide

theorem half_bits {f : BitVec 32 → BitVec 16} {g : Int → BitVec 16} {ks : List Kind} {neg : Bool} {x : BitVec 16}
    (h : FloatText 16 f g 0x7FFF 0x7C00 ks neg x) :
    (x.toNat + 2 ^ 15 * bit neg) % 2 ^ 15 = x.toNat % 2 ^ 15 ∧ (x.toNat + 2 ^ 15 * bit neg) / 2 ^ 15 = bit (x.msb || neg) := by
  cases neg with
  | false =>
    have := x.isLt
    simp only [bit, Bool.false_eq_true, if_false, Nat.mul_zero, Nat.add_zero, Bool.or_false, BitVec.msb_eq_decide, decide_eq_true_eq, true_and]
    split <;> omega
  | true =>
    have : x = 0x7FFF ∨ x = 0x7C00 := by
      cases h with
      | minus h => exact h.imp And.right And.right
    rcases this with rfl | rfl <;> decide

def f2fCodes : List (List Kind × Nat) := [([.ident c!".ROUND"], 8), ([.ident c!".FLOOR"], 9), ([.ident c!".CEIL"], 10),
  ([.ident c!".TRUNC"], 11), ([.ident c!".PASS"], 3), ([], 0)]

theorem f2f_codes : ∀ p ∈ f2fCodes, ∀ q ∈ f2fCodes, bitsAt (field 39 p.2) 39 2 = bitsAt (field 39 q.2) 39 2 →
    bitsAt (field 39 p.2) 42 1 = bitsAt (field 39 q.2) 42 1 → p.1 = q.1 := by decide

def srCodes : List (List Kind × Nat) := [([.ident c!"SR_TID", .ident c!".X"], 33), ([.ident c!"SR_TID", .ident c!".Y"], 34),
  ([.ident c!"SR_TID", .ident c!".Z"], 35), ([.ident c!"SR_TID"], 32), ([.ident c!"SR_CTAID", .ident c!".X"], 37),
  ([.ident c!"SR_CTAID", .ident c!".Y"], 38), ([.ident c!"SR_CTAID", .ident c!".Z"], 39)]

theorem sr_codes : ∀ p ∈ srCodes, ∀ q ∈ srCodes, p.2 = q.2 → p.1 = q.1 := by decide

def ldgCodes : List (List Kind × Nat) := [([.ident c!".U8"], 0), ([.ident c!".S8"], 1), ([.ident c!".U16"], 2), ([.ident c!".S16"], 3),
  ([.ident c!".32"], 4), ([.ident c!".64"], 5), ([.ident c!".128"], 6), ([.ident c!".U", .ident c!".128"], 7)]

theorem ldg_codes : ∀ p ∈ ldgCodes, p.2 < 8 ∧ ∀ q ∈ ldgCodes, p.2 = q.2 → p.1 = q.1 := by decide

def atomicCodes : List (List Kind × Nat) := [([.ident c!".U32"], 0), ([.ident c!".S32"], 1), ([.ident c!".U64"], 2),
  ([.ident c!".F32", .ident c!".FTZ", .ident c!".RN"], 3), ([.ident c!".F16x2", .ident c!".RN"], 4), ([.ident c!".S64"], 5)]

theorem atomic_codes : ∀ p ∈ atomicCodes, p.2 < 8 ∧ ∀ q ∈ atomicCodes, p.2 = q.2 → p.1 = q.1 := by decide

def formatCodes : List (List Kind × Nat × Nat) := [([.ident c!".S8"], 0, 1), ([.ident c!"."], 1, 1), ([.ident c!".S16"], 2, 1),
  ([.ident c!".S32"], 3, 1), ([.ident c!".U8"], 0, 0), ([.ident c!".U16"], 2, 0), ([.ident c!".U32"], 3, 0)]

theorem format_codes : ∀ p ∈ formatCodes, p.2.1 < 4 ∧ p.2.2 < 2 ∧ ∀ q ∈ formatCodes, p.2 = q.2 → p.1 = q.1 := by decide

def texsModeCodes : List (List Kind × Nat) := [([], 0), ([.ident c!".LL"], 1), ([.ident c!".LZ"], 2), ([.ident c!".DC"], 4),
  ([.ident c!".LL", .ident c!".DC"], 5), ([.ident c!".LZ", .ident c!".DC"], 6)]

theorem texsMode_codes : ∀ p ∈ texsModeCodes, p.2 < 8 ∧ ∀ q ∈ texsModeCodes, p.2 = q.2 → p.1 = q.1 := by decide

set_option maxHeartbeats 1000000 in
/-- The bits of an operand determine its tokens up to synonyms. -/
theorem accepts_same {o : Operand} (ho : o.readable = true) {e e' : Env} {v v' : BitVec 64} {ks ks' : List Kind} {k k' : Kind}
    {b b' : BitVec 64} {r r' : BitVec 32} (h : Accepts e v o ks k b r) (h' : Accepts e' v' o ks' k' b' r')
    (hp : ∀ k ∈ ks, k.proper) (hp' : ∀ k ∈ ks', k.proper)
    (hb : ∀ a w, (a, w) ∈ o.own → a + w ≤ 64 → bitsAt b a w = bitsAt b' a w)
    (hr : ∀ q, (64 + q, 1) ∈ o.own → r.getLsbD q = r'.getLsbD q)
    (hv : ∀ a w, (a, w) ∈ o.looks → bitsAt v a w = bitsAt v' a w) : Same e e' o ks ks' := by
  induction o generalizing ks ks' k k' b b' r r' v v' with
  | flag s a =>
    simp [Operand.readable, Operand.inside] at ho
    exact optWord_same (a := a) (bitsAt_field (by omega) (by omega)) h h' (hb _ _ (by simp [Operand.own, Operand.fields]) (by omega))
  | uint m a =>
    simp [Operand.readable, Operand.inside, Operand.fields] at ho
    obtain ⟨-, x, rfl, hx, rfl⟩ := h
    obtain ⟨-, y, rfl, hy, rfl⟩ := h'
    obtain rfl := field_inj (by omega) (lt_width (by omega)) (lt_width (by omega)) (hb a (width m.toNat) (by simp [Operand.own, Operand.fields]) (by omega))
    rfl
  | sint w a =>
    simp [Operand.readable, Operand.inside, Operand.fields] at ho
    obtain ⟨-, x, rfl, hx, hx', rfl⟩ := h
    obtain ⟨-, y, rfl, hy, hy', rfl⟩ := h'
    obtain rfl := sfield_inj (by omega) (by omega) hx hx' hy hy' (hb a w (by simp [Operand.own, Operand.fields]) (by omega))
    rfl
  | dotTable d a t =>
    simp [Operand.readable, Operand.inside] at ho
    exact modifier_same (by omega) (lt_width (Nat.le_refl _)) h h' (hb a _ (by simp [Operand.own, Operand.fields]) (by omega))
  | uimmExtended =>
    obtain ⟨-, x, rfl, hx, hbx⟩ := h
    obtain ⟨-, y, rfl, hy, hby⟩ := h'
    obtain ⟨h1, h2⟩ := extended_bits hx hbx
    obtain ⟨h3, h4⟩ := extended_bits hy hby
    have h5 := hb 20 19 (by simp [Operand.own]) (by omega)
    have h6 := hb 56 1 (by simp [Operand.own]) (by omega)
    have : x = y ∨ ((x = 2 ^ 19 ∨ x = 2 ^ 20) ∧ (y = 2 ^ 19 ∨ y = 2 ^ 20)) := by omega
    rcases this with rfl | ⟨hx, hy⟩
    · exact .inl rfl
    · refine .inr fun z hz => ?_
      simp only [List.mem_cons, List.not_mem_nil, or_false] at hz
      rcases hz with rfl | rfl
      · rcases hx with rfl | rfl <;> simp
      · rcases hy with rfl | rfl <;> simp
  | comma =>
    obtain ⟨-, rfl, -⟩ := h
    obtain ⟨-, rfl, -⟩ := h'
    rfl
  | label =>
    obtain ⟨-, x, hx, hx1, hx2, rfl⟩ := h
    obtain ⟨-, y, hy, hy1, hy2, rfl⟩ := h'
    have := sfield_inj (a := 20) (w := 24) (by omega) (by omega) hx1 hx2 hy1 hy2 (hb 20 24 (by simp [Operand.own, Operand.fields]) (by omega))
    refine ⟨x - e.pc, ?_, ?_⟩
    · rcases hx with ⟨s, a, rfl, hs, rfl⟩ | rfl
      · exact .label hs
      · exact .address
    · rw [show x - e.pc = y - e'.pc by omega]
      rcases hy with ⟨s, a, rfl, hs, rfl⟩ | rfl
      · exact .label hs
      · exact .address
  | gpr a =>
    simp [Operand.readable, Operand.inside] at ho
    obtain ⟨n, rest, rfl, rfl, hu⟩ := h
    obtain ⟨n', rest', rfl, rfl, hu'⟩ := h'
    have hn : n ≤ 255 := (hp (.reg n) (by simp)).1
    have hn' : n' ≤ 255 := (hp' (.reg n') (by simp)).1
    obtain rfl := field_inj (w := 8) (by omega) (by omega) (by omega) (hb a 8 (by simp [Operand.own, Operand.fields]) (by omega))
    obtain rfl := reuse_same hu hu' (fun q hq => hr q (by simp [Operand.own, Operand.fields, hq]))
    rfl
  | mirrorGpr a =>
    simp [Operand.readable, Operand.inside] at ho
    obtain ⟨-, n, rest, rfl, hn, hu⟩ := h
    obtain ⟨-, n', rest', rfl, hn', hu'⟩ := h'
    have := hv a 8 (by simp [Operand.looks])
    obtain rfl : n = n' := by omega
    obtain rfl := reuse_same hu hu' (fun q hq => hr q (by simp [Operand.own, Operand.fields, hq]))
    rfl
  | cbuf =>
    obtain ⟨-, x, y, rfl, hx, hy1, hy2, hy3, rfl⟩ := h
    obtain ⟨-, x', y', rfl, hx', hy1', hy2', hy3', rfl⟩ := h'
    have h1 := hb 34 5 (by simp [Operand.own, Operand.fields]) (by omega)
    have h2 := hb 20 14 (by simp [Operand.own, Operand.fields]) (by omega)
    obtain ⟨rfl, h3⟩ := bits_pair (a := 34) (u := 5) (c := 20) (w := 14) (by omega) (by omega) (by omega) (sfield_lt _ _) (by omega) (sfield_lt _ _) (by omega) h1 h2
    have h4 : y / 4 = y' / 4 := by
      rw [← signedOf_emod (w := 14) (v := y / 4) (by omega) (by omega) (by omega), h3, signedOf_emod (by omega) (by omega) (by omega)]
    obtain rfl : y = y' := by omega
    rfl
  | imm20 =>
    obtain ⟨-, x, rfl, hx1, hx2, rfl⟩ := h
    obtain ⟨-, y, rfl, hy1, hy2, rfl⟩ := h'
    have h1 := hb 20 19 (by simp [Operand.own, Operand.fields]) (by omega)
    have h2 := hb 56 1 (by simp [Operand.own, Operand.fields]) (by omega)
    obtain ⟨h3, h4⟩ := bits_pair (a := 20) (u := 19) (c := 56) (w := 1) (by omega) (by omega) (sfield_lt _ _) (bit_lt _) (sfield_lt _ _) (bit_lt _) (by omega) h1 h2
    have h5 := bit_inj h4
    have h6 : (x < 0 ↔ y < 0) := by simpa using h5
    obtain rfl : x = y := by omega
    rfl
  | fimm wide =>
    obtain ⟨-, neg, x, hx, hbx⟩ := h
    obtain ⟨-, neg', x', hx', hbx'⟩ := h'
    obtain ⟨h1, h2, h3⟩ := single_bits hx
    obtain ⟨h1', h2', h3'⟩ := single_bits hx'
    have hlt := bit_lt (x.msb ^^ neg)
    have hlt' := bit_lt (x'.msb ^^ neg')
    refine ⟨neg, neg', x, x', hx, hx', ?_⟩
    cases wide with
    | true =>
      simp only [if_true] at hbx hbx' ⊢
      subst hbx hbx'
      have h4 := field_inj (w := 32) (by omega) (by omega) (by omega) (hb 20 32 (by simp [Operand.own, Operand.fields]) (by omega))
      rw [h4] at h1 h2
      exact ⟨by omega, by rw [bit_inj (h2.symm.trans h2')]⟩
    | false =>
      simp only [Bool.false_eq_true, if_false] at hbx hbx' ⊢
      rw [h3] at hbx
      rw [h3'] at hbx'
      subst hbx hbx'
      obtain ⟨h5, h6⟩ := bits_pair (a := 20) (u := 19) (c := 56) (w := 1) (by omega) (by omega) (Nat.mod_lt _ (by omega)) hlt (Nat.mod_lt _ (by omega)) hlt' (by omega)
        (hb 20 19 (by simp [Operand.own, Operand.fields]) (by omega)) (hb 56 1 (by simp [Operand.own, Operand.fields]) (by omega))
      exact ⟨h5, by rw [bit_inj h6]⟩
  | dimm20 =>
    obtain ⟨-, neg, x, hx, rfl⟩ := h
    obtain ⟨-, neg', x', hx', rfl⟩ := h'
    obtain ⟨h5, h6⟩ := bits_pair (a := 20) (u := 19) (c := 56) (w := 1) (by omega) (by omega) (Nat.mod_lt _ (by omega)) (bit_lt _) (Nat.mod_lt _ (by omega)) (bit_lt _) (by omega)
        (hb 20 19 (by simp [Operand.own, Operand.fields]) (by omega)) (hb 56 1 (by simp [Operand.own, Operand.fields]) (by omega))
    exact ⟨neg, neg', x, x', hx, hx', h5, congrArg some (bit_inj h6)⟩
  | himm wide a n =>
    simp only [Operand.readable, Operand.inside, Bool.and_eq_true, decide_eq_true_eq] at ho
    obtain ⟨⟨-, h1, h2⟩, -⟩ := ho
    obtain ⟨-, neg, x, hx, hbx⟩ := h
    obtain ⟨-, neg', x', hx', hbx'⟩ := h'
    refine ⟨neg, neg', x, x', hx, hx', ?_⟩
    have hxl := x.isLt
    have hxl' := x'.isLt
    have hf := hb a (if wide then 16 else 9) (by simp [Operand.own, Operand.fields]) (by omega)
    cases n with
    | some n =>
      simp only [Bool.and_eq_true, decide_eq_true_eq] at h2
      have hg := hb n 1 (by simp [Operand.own, Operand.fields]) (by omega)
      simp only [Option.isNone_some, Bool.and_false, bit, Bool.false_eq_true, if_false, Nat.mul_zero, Nat.add_zero] at hbx hbx'
      cases wide with
      | true =>
        simp only [if_true] at hbx hbx' hf h1 h2 ⊢
        subst hbx hbx'
        obtain ⟨h5, h6⟩ := bits_pair (u := 16) (w := 1) (by omega) (by omega) (by omega) (bit_lt _) (by omega) (bit_lt _) (by omega) hf hg
        exact ⟨by omega, by rw [bit_inj h6]⟩
      | false =>
        simp only [Bool.false_eq_true, if_false] at hbx hbx' hf h1 h2 ⊢
        subst hbx hbx'
        obtain ⟨h5, h6⟩ := bits_pair (u := 9) (w := 1) (by omega) (by omega) (by omega) (bit_lt _) (by omega) (bit_lt _) (by omega) hf hg
        exact ⟨h5, by rw [bit_inj h6]⟩
    | none =>
      cases wide with
      | true =>
        obtain ⟨h3, h4⟩ := half_bits hx
        obtain ⟨h3', h4'⟩ := half_bits hx'
        have hlt := bit_lt (x.msb || neg)
        have hlt' := bit_lt (x'.msb || neg')
        simp only [if_true, Option.isNone_none, Bool.and_true] at hbx hbx' hf h1 ⊢
        subst hbx hbx'
        rw [bitsAt_or, bitsAt_or, bitsAt_zero, Nat.or_zero, Nat.or_zero] at hf
        have h5 := field_inj (w := 16) (by omega) (by omega) (by omega) hf
        rw [h5] at h3 h4
        exact ⟨by omega, by rw [bit_inj (h4.symm.trans h4')]⟩
      | false =>
        simp only [Bool.false_eq_true, if_false] at hbx hbx' hf h1 ⊢
        subst hbx hbx'
        rw [bitsAt_or, bitsAt_or, bitsAt_zero, Nat.or_zero, Nat.or_zero] at hf
        exact ⟨field_inj (w := 9) (by omega) (by omega) (by omega) hf, trivial⟩
  | bop a =>
    simp [Operand.readable, Operand.inside] at ho
    obtain ⟨-, x, i, rfl, he, rfl⟩ := h
    obtain ⟨-, x', i', rfl, he', rfl⟩ := h'
    have h1 := he.lt
    have h2 := he'.lt
    simp only [List.length_cons, List.length_nil] at h1 h2
    obtain rfl := field_inj (w := 2) (by omega) (by omega) (by omega) (hb a 2 (by simp [Operand.own, Operand.fields]) (by omega))
    rw [he.token he']
    rfl
  | pred a negable =>
    simp [Operand.readable, Operand.inside] at ho
    obtain ⟨-, p, n, rfl, hn, rfl⟩ := h
    obtain ⟨-, p', n', rfl, hn', rfl⟩ := h'
    have h1 : p ≤ 7 := (hp (.pred p n) (by simp)).1
    have h2 : p' ≤ 7 := (hp' (.pred p' n') (by simp)).1
    have h3 := hb a 3 (by simp [Operand.own, Operand.fields]) (by omega)
    have h4 : bitsAt (field a p ||| field (a + 3) (bit n)) (a + 3) 1 = bitsAt (field a p' ||| field (a + 3) (bit n')) (a + 3) 1 := by
      cases negable with
      | true => exact hb (a + 3) 1 (by simp [Operand.own, Operand.fields]) (by omega)
      | false =>
        have : n = false := by simpa using hn
        have : n' = false := by simpa using hn'
        subst n n'
        simp only [bitsAt_or]
        rw [bitsAt_apart (u := 3) (n := p) (by omega) (by omega), bitsAt_apart (u := 3) (n := p') (by omega) (by omega)]
    obtain ⟨rfl, h5⟩ := bits_pair (by omega) (by omega) (by omega) (bit_lt _) (by omega) (bit_lt _) (by omega) h3 h4
    rw [bit_inj h5]
    rfl
  | invertedPred a =>
    simp [Operand.readable, Operand.inside] at ho
    obtain ⟨-, p, rfl, rfl⟩ := h
    obtain ⟨-, p', rfl, rfl⟩ := h'
    have h1 : p ≤ 7 := (hp (.pred p false) (by simp)).1
    have h2 : p' ≤ 7 := (hp' (.pred p' false) (by simp)).1
    have := field_inj (w := 3) (by omega) (by omega) (by omega) (hb a 3 (by simp [Operand.own, Operand.fields]) (by omega))
    obtain rfl : p = p' := by omega
    rfl
  | neg a =>
    simp [Operand.readable, Operand.inside] at ho
    have := hb a 1 (by simp [Operand.own, Operand.fields]) (by omega)
    obtain ⟨-, ⟨rfl, rfl⟩ | ⟨rfl, -, rfl⟩⟩ := h <;> obtain ⟨-, ⟨rfl, rfl⟩ | ⟨rfl, -, rfl⟩⟩ := h'
    · rfl
    · rw [bitsAt_field (by omega) (by omega), bitsAt_zero] at this; cases this
    · rw [bitsAt_field (by omega) (by omega), bitsAt_zero] at this; cases this
    · rfl
  | tilde a =>
    simp [Operand.readable, Operand.inside] at ho
    have := hb a 1 (by simp [Operand.own, Operand.fields]) (by omega)
    obtain ⟨-, ⟨rfl, rfl⟩ | ⟨rfl, -, rfl⟩⟩ := h <;> obtain ⟨-, ⟨rfl, rfl⟩ | ⟨rfl, -, rfl⟩⟩ := h'
    · rfl
    · rw [bitsAt_field (by omega) (by omega), bitsAt_zero] at this; cases this
    · rw [bitsAt_field (by omega) (by omega), bitsAt_zero] at this; cases this
    · rfl
  | abs a inner ih =>
    simp only [Operand.readable, Bool.and_eq_true, decide_eq_true_eq] at ho
    obtain ⟨⟨⟨ha, hap⟩, hin⟩, hk⟩ := ho
    have h1 := hb a 1 (by simp [Operand.own]) ha
    have hown : inner.own = inner.fields := by
      cases inner <;> simp at hk <;> rfl
    have hzero : ∀ {e v ks k b r}, Accepts e v inner ks k b r → (∀ k ∈ ks, k.proper) → bitsAt b a 1 = 0 := by
      intro e v ks k b r h hp
      cases inner with
      | gpr c =>
        obtain ⟨n, rest, rfl, rfl, -⟩ := h
        have hn : n ≤ 255 := (hp (.reg n) (by simp)).1
        simp [Operand.fields, Field.apart] at hap
        exact bitsAt_apart (u := 8) (by omega) (by omega)
      | cbuf =>
        obtain ⟨-, x, y, rfl, hx, hy1, hy2, hy3, rfl⟩ := h
        simp [Operand.fields, Field.apart] at hap
        rw [bitsAt_or, bitsAt_apart (u := 5) (by omega) (by omega), sfield, bitsAt_apart (u := 14) (sfield_lt _ _) (by omega)]
        rfl
      | _ => simp at hk
    have happ : ∀ c w, (c, w) ∈ inner.own → bitsAt (field a 1) c w = 0 := by
      intro c w hc
      rw [hown] at hc
      have := List.all_eq_true.1 hap _ hc
      simp only [Field.apart, Bool.or_eq_true, decide_eq_true_eq] at this
      exact bitsAt_apart (u := 1) (by omega) (by omega)
    have hlook : inner.looks = [] := by cases inner <;> simp at hk <;> rfl
    have hone : bitsAt (field a 1) a 1 = 1 := bitsAt_field (by omega) ha
    have hsub : ∀ f, f ∈ inner.own → f ∈ (Operand.abs a inner).own := fun f hf => by simp [Operand.own, hf]
    rcases h with ⟨ks1, b1, rfl, rfl, h⟩ | ⟨hx, h⟩ <;> rcases h' with ⟨ks1', b1', rfl, rfl, h'⟩ | ⟨hx', h'⟩
    · refine .inl ⟨_, _, rfl, rfl, ih hin h h' (fun k hk => hp k (by simp [hk])) (fun k hk => hp' k (by simp [hk])) ?_ (fun q hq => hr q (hsub _ hq))
        (by rw [hlook]; simp)⟩
      intro c w hc hcw
      have := hb c w (hsub _ hc) hcw
      rwa [bitsAt_or, bitsAt_or, happ c w hc, Nat.zero_or, Nat.zero_or] at this
    · rw [bitsAt_or, hone, hzero h (fun k hk => hp k (by simp [hk])), hzero h' hp'] at h1
      simp at h1
    · rw [bitsAt_or, hone, hzero h hp, hzero h' (fun k hk => hp' k (by simp [hk]))] at h1
      simp at h1
    · refine .inr ⟨?_, ?_, ih hin h h' hp hp' (fun c w hc => hb c w (hsub _ hc)) (fun q hq => hr q (hsub _ hq)) (by rw [hlook]; simp)⟩
      · rintro he
        cases ks <;> simp_all
      · rintro he
        cases ks' <;> simp_all
  | po a c =>
    simp [Operand.readable, Operand.flagless, Operand.fields, apartList, Field.apart] at ho
    refine optWord_same (a := a) ?_ h h' (hb _ _ (by simp [Operand.own, Operand.fields]) (by omega))
    rw [bitsAt_or, bitsAt_field (by omega) (by omega), bitsAt_apart (u := 1) (by omega) (by omega)]
    rfl
  | defaultRz a =>
    obtain ⟨-, rfl, -⟩ := h
    obtain ⟨-, rfl, -⟩ := h'
    rfl
  | memAddress i a w shr =>
    simp [Operand.readable, Operand.inside] at ho
    refine memory_same (by omega) h h' hp hp' (hb 8 8 (by simp [Operand.own, Operand.fields]) (by omega)) (fun hi => hb a w (by simp [Operand.own, Operand.fields, hi]) (by omega))
      (hr 0 (by simp [Operand.own, Operand.fields]))
  | ccTests a t =>
    simp [Operand.readable, Operand.flagless, Operand.fields] at ho
    have h1 := hb a (width (max (t.length - 1) 15)) (by simp [Operand.own, Operand.fields]) (by omega)
    simp only [Same]
    obtain ⟨-, ⟨x, i, rfl, he, rfl⟩ | ⟨rfl, -, rfl⟩⟩ := h <;> obtain ⟨-, ⟨x', i', rfl, he', rfl⟩ | ⟨rfl, -, rfl⟩⟩ := h'
    · have h2 := he.lt
      have h3 := he'.lt
      obtain rfl := field_inj (by omega) (lt_width (by omega)) (lt_width (by omega)) h1
      rw [he.token he']
    · have h2 := he.lt
      obtain rfl := field_inj (by omega) (lt_width (by omega)) (lt_width (by omega)) h1
      simp [meant, he.name]
    · have h2 := he'.lt
      obtain rfl := field_inj (by omega) (lt_width (by omega)) (lt_width (by omega)) h1
      simp [meant, he'.name]
    · rfl
  | expect s pre post =>
    obtain ⟨-, rfl, -⟩ := h
    obtain ⟨-, rfl, -⟩ := h'
    rfl
  | optText s => trivial
  | immAttr =>
    obtain ⟨-, x, rfl, hx, rfl⟩ := h
    obtain ⟨-, y, rfl, hy, rfl⟩ := h'
    obtain ⟨rfl, -⟩ := bits_pair (a := 20) (u := 10) (c := 8) (w := 8) (by omega) (by omega) (by omega) (by omega) (by omega) (by omega) (by omega)
      (hb 20 10 (by simp [Operand.own, Operand.fields]) (by omega)) (hb 8 8 (by simp [Operand.own, Operand.fields]) (by omega))
    rfl
  | patchAttr =>
    obtain ⟨n, rest, plus, y, rfl, hpl, hu, hy1, hy2, rfl⟩ := h
    obtain ⟨n', rest', plus', y', rfl, hpl', hu', hy1', hy2', rfl⟩ := h'
    have hn : n ≤ 255 := (hp (.reg n) (by simp)).1
    have hn' : n' ≤ 255 := (hp' (.reg n') (by simp)).1
    obtain ⟨rfl, h1⟩ := bits_pair (a := 8) (u := 8) (c := 20) (w := 11) (by omega) (by omega) (by omega) (sfield_lt _ _) (by omega) (sfield_lt _ _) (by omega)
      (hb 8 8 (by simp [Operand.own, Operand.fields]) (by omega)) (hb 20 11 (by simp [Operand.own, Operand.fields]) (by omega))
    obtain rfl : y = y' := by
      rw [← signedOf_emod (w := 11) (v := y) (by omega) hy1 hy2, h1, signedOf_emod (by omega) hy1' hy2']
    obtain rfl := reuse_same hu hu' (fun q hq => hr q (by
      simp only [reuseFields, if_true, List.mem_singleton] at hq
      simp [Operand.own, Operand.fields, hq]))
    simp only [Same]
    rcases hpl with rfl | rfl <;> rcases hpl' with rfl | rfl <;> simp
  | physAttr =>
    obtain ⟨n, rest, rfl, hu, rfl⟩ := h
    obtain ⟨n', rest', rfl, hu', rfl⟩ := h'
    have hn : n ≤ 255 := (hp (.reg n) (by simp)).1
    have hn' : n' ≤ 255 := (hp' (.reg n') (by simp)).1
    obtain rfl := field_inj (w := 8) (by omega) (by omega) (by omega) (hb 8 8 (by simp [Operand.own, Operand.fields]) (by omega))
    obtain rfl := reuse_same hu hu' (fun q hq => hr q (by simpa [Operand.own, Operand.fields, reuseFields] using hq))
    rfl
  | xmadSigns =>
    have h1 := hb 48 1 (by simp [Operand.own, Operand.fields]) (by omega)
    have h2 := hb 49 1 (by simp [Operand.own, Operand.fields]) (by omega)
    have key : ∀ {e v ks k b r}, Accepts e v .xmadSigns ks k b r → ∃ x y : Bool, meant [.ident c!".U16", .ident c!".U16"] ks =
        [.ident (if x then c!".S16" else c!".U16"), .ident (if y then c!".S16" else c!".U16")] ∧ b = field 48 (bit x) ||| field 49 (bit y) := by
      rintro e v ks k b r ⟨-, ⟨x, y, rfl, rfl⟩ | ⟨rfl, -, -, rfl⟩⟩
      · exact ⟨x, y, rfl, rfl⟩
      · exact ⟨false, false, rfl, by simp [bit, field_zero]⟩
    obtain ⟨x, y, hk, rfl⟩ := key h
    obtain ⟨x', y', hk', rfl⟩ := key h'
    obtain ⟨h3, h4⟩ := bits_pair (u := 1) (w := 1) (by omega) (by omega) (bit_lt _) (bit_lt _) (bit_lt _) (bit_lt _) (by omega) h1 h2
    simp only [Same]
    rw [hk, hk', bit_inj h3, bit_inj h4]
  | f2fRounding =>
    have h0 := hv 8 2 (by simp [Operand.looks])
    have h0' := hv 10 2 (by simp [Operand.looks])
    have h1 := hb 39 2 (by simp [Operand.own, Operand.fields]) (by omega)
    have h2 := hb 42 1 (by simp [Operand.own, Operand.fields]) (by omega)
    have hq : (bitsAt v 8 2 = bitsAt v 10 2) ↔ (bitsAt v' 8 2 = bitsAt v' 10 2) := by
      rw [h0, h0']
    by_cases hc : bitsAt v 8 2 = bitsAt v 10 2
    · rw [Accepts, if_pos hc] at h
      rw [Accepts, if_pos (hq.1 hc)] at h'
      have key : ∀ {ks : List Kind} {k : Kind} {b : BitVec 64},
          ((∃ k s x, ks = [k] ∧ (s, x) ∈ [(c!".ROUND", 8), (c!".FLOOR", 9), (c!".CEIL", 10), (c!".TRUNC", 11),
            (c!".PASS", 3)] ∧ k = .ident s ∧ b = field 39 x) ∨
          (ks = [] ∧ (∀ s ∈ [c!".ROUND", c!".FLOOR", c!".CEIL", c!".TRUNC", c!".PASS"], k ≠ .ident s) ∧ b = 0)) →
          ∃ x, (ks, x) ∈ f2fCodes ∧ b = field 39 x := by
        rintro ks k b (⟨_, s, x, rfl, hm, rfl, rfl⟩ | ⟨rfl, -, rfl⟩)
        · refine ⟨x, ?_, rfl⟩
          simp only [List.mem_cons, Prod.mk.injEq, List.not_mem_nil, or_false] at hm
          rcases hm with ⟨rfl, rfl⟩ | ⟨rfl, rfl⟩ | ⟨rfl, rfl⟩ | ⟨rfl, rfl⟩ | ⟨rfl, rfl⟩ <;> simp [f2fCodes]
        · exact ⟨0, by simp [f2fCodes], (field_zero _).symm⟩
      obtain ⟨x, hx, rfl⟩ := key h.2
      obtain ⟨x', hx', rfl⟩ := key h'.2
      obtain rfl := f2f_codes _ hx _ hx' h1 h2
      rfl
    · rw [Accepts, if_neg hc] at h
      rw [Accepts, if_neg (fun h => hc (hq.2 h))] at h'
      exact modifier_same (d := some 0) (w := 2) (by omega) (by decide) h h' h1
  | intFormat u s a c =>
    simp [Operand.readable, Operand.flagless, Operand.fields, apartList, Field.apart] at ho
    have h1 := hb a _ (by simp [Operand.own, Operand.fields]; exact .inl rfl) (by omega)
    have h2 := hb c 1 (by simp [Operand.own, Operand.fields]) (by omega)
    have key : ∀ {e v ks k b r}, Accepts e v (.intFormat u s a c) ks k b r → ∃ z x i, ks = [x] ∧
        Entry c!"." (if z then s else u) x i ∧ b = field a i ||| field c (bit z) := by
      rintro e v ks k b r ⟨-, x, i, rfl, ⟨he, rfl⟩ | ⟨-, he, rfl⟩⟩
      · exact ⟨false, x, i, rfl, he, by simp [bit, field_zero]⟩
      · exact ⟨true, x, i, rfl, he, by simp [bit, BitVec.or_comm]⟩
    obtain ⟨z, x, i, rfl, he, rfl⟩ := key h
    obtain ⟨z', x', i', rfl, he', rfl⟩ := key h'
    have h3 : i ≤ max (u.length - 1) (s.length - 1) := by
      have := he.lt; split at this <;> omega
    have h4 : i' ≤ max (u.length - 1) (s.length - 1) := by
      have := he'.lt; split at this <;> omega
    obtain ⟨rfl, h5⟩ := bits_pair (w := 1) (by omega) (by omega) (lt_width h3) (bit_lt _) (lt_width h4) (bit_lt _) (by omega) h1 h2
    obtain rfl := bit_inj h5
    rw [he.token he']
    rfl
  | plainTable a t =>
    simp [Operand.readable, Operand.inside] at ho
    obtain ⟨-, x, i, rfl, he, rfl⟩ := h
    obtain ⟨-, x', i', rfl, he', rfl⟩ := h'
    have h1 := he.lt
    have h2 := he'.lt
    obtain rfl := field_inj (w := width (t.length - 1)) (by omega) (lt_width (by omega)) (lt_width (by omega)) (hb a _ (by simp [Operand.own, Operand.fields]) (by omega))
    rw [he.token he']
    rfl
  | selector a ta short x y =>
    simp [Operand.readable, Operand.flagless, Operand.fields] at ho
    have h1 := hb a (width (max (x.length - 1) (y.length - 1))) (by simp [Operand.own, Operand.fields]) (by omega)
    have h2 := hv ta 3 (by simp [Operand.looks])
    simp only [Accepts, ← h2] at h h'
    refine ⟨if bitsAt v ta 3 = short then x else y, by split <;> simp, ?_⟩
    exact modifier_same (d := some 0) (by omega) (by
      split
      · exact lt_width (by simp only [Option.getD_some]; omega)
      · exact lt_width (by simp only [Option.getD_some]; omega)) h h' h1
  | ldcAddress =>
    obtain ⟨x, rest, b1, rfl, hx, rfl, hm⟩ := h
    obtain ⟨x', rest', b1', rfl, hx', rfl, hm'⟩ := h'
    have hq : ∀ {ks k b r}, memory true 20 16 0 ks k b r → (∀ k ∈ ks, k.proper) → bitsAt b 36 5 = 0 := by
      rintro ks k b r ⟨n, base, off, rfl, hbase, hoff⟩ hp
      have hn : n ≤ 255 := by
        rcases hbase with ⟨rest, rfl, -⟩ | ⟨-, rfl, -⟩
        · exact (hp (.reg n) (by simp)).1
        · omega
      rcases hoff with ⟨rfl, rfl⟩ | ⟨-, y, rfl, -, rfl⟩
      · exact bitsAt_apart (u := 8) (by omega) (by omega)
      · rw [bitsAt_or, bitsAt_apart (u := 8) (by omega) (by omega), sfield, bitsAt_apart (u := 16) (sfield_lt _ _) (by omega)]
        rfl
    have hq1 := hq hm (fun k hk => hp k (by simp [hk]))
    have hq2 := hq hm' (fun k hk => hp' k (by simp [hk]))
    have h1 := hb 36 5 (by simp [Operand.own, Operand.fields]) (by omega)
    have h2 := hb 8 8 (by simp [Operand.own, Operand.fields]) (by omega)
    have h3 := hb 20 16 (by simp [Operand.own, Operand.fields]) (by omega)
    rw [bitsAt_or, bitsAt_or, hq1, hq2, bitsAt_field (by omega) (by omega), bitsAt_field (by omega) (by omega)] at h1
    rw [bitsAt_or, bitsAt_or, bitsAt_apart (u := 5) (by omega) (by omega), bitsAt_apart (u := 5) (by omega) (by omega)] at h2 h3
    simp only [Nat.or_zero, Nat.zero_or] at h1 h2 h3
    subst h1
    exact ⟨x, rest, rest', rfl, rfl, memory_same (by omega) hm hm' (fun k hk => hp k (by simp [hk])) (fun k hk => hp' k (by simp [hk])) h2 (fun _ => h3)
      (hr 0 (by simp [Operand.own, Operand.fields]))⟩
  | s2r t =>
    simp only [Operand.readable, Bool.and_eq_true, decide_eq_true_eq] at ho
    obtain ⟨-, hl, hz⟩ := ho
    have hwid : 20 + width (max (t.length - 1) 39) ≤ 64 := by
      have : max (t.length - 1) 39 < 2 ^ 8 := by omega
      have := (Nat.log2_lt (by omega)).2 this
      unfold width
      omega
    have h1 := hb 20 (width (max (t.length - 1) 39)) (by simp [Operand.own, Operand.fields]) hwid
    have key : ∀ {e v ks k b r}, Accepts e v (.s2r t) ks k b r → (∀ k ∈ ks, k.proper) → ∃ x, b = field 20 x ∧
        x ≤ max (t.length - 1) 39 ∧ ((ks, x) ∈ srCodes ∧ t[x]? = some [] ∨ (∃ k, ks = [k] ∧ Entry [] t k x) ∧ t[x]? ≠ some []) := by
      rintro e v ks k b r ⟨-, h⟩ hp
      simp only [List.all_cons, Bool.and_eq_true, beq_iff_eq] at hz
      rcases h with ⟨s, x, hm, rfl, rfl⟩ | ⟨rfl, -, rfl⟩ | ⟨s, x, hm, rfl, rfl⟩ | ⟨k, i, rfl, -, -, he, rfl⟩
      · refine ⟨x, rfl, ?_⟩
        simp only [List.mem_cons, Prod.mk.injEq, List.not_mem_nil, or_false] at hm
        rcases hm with ⟨rfl, rfl⟩ | ⟨rfl, rfl⟩ | ⟨rfl, rfl⟩ <;> exact ⟨by omega, .inl ⟨by simp [srCodes], by tauto⟩⟩
      · exact ⟨32, rfl, by omega, .inl ⟨by simp [srCodes], by tauto⟩⟩
      · refine ⟨x, rfl, ?_⟩
        simp only [List.mem_cons, Prod.mk.injEq, List.not_mem_nil, or_false] at hm
        rcases hm with ⟨rfl, rfl⟩ | ⟨rfl, rfl⟩ | ⟨rfl, rfl⟩ <;> exact ⟨by omega, .inl ⟨by simp [srCodes], by tauto⟩⟩
      · have := he.lt
        refine ⟨i, rfl, by omega, .inr ⟨⟨k, rfl, he⟩, ?_⟩⟩
        obtain ⟨n, rfl, hn, -⟩ := he
        rw [hn]
        rintro ⟨⟩
        exact (hp _ (List.mem_singleton.2 rfl)).2 rfl
    obtain ⟨x, rfl, hx, hk⟩ := key h hp
    obtain ⟨x', rfl, hx', hk'⟩ := key h' hp'
    obtain rfl := field_inj hwid (lt_width hx) (lt_width hx') h1
    rcases hk with ⟨hk, hn⟩ | ⟨⟨k, rfl, he⟩, hn⟩ <;> rcases hk' with ⟨hk', hn'⟩ | ⟨⟨k', rfl, he'⟩, hn'⟩
    · exact sr_codes _ hk _ hk' rfl
    · exact (hn' hn).elim
    · exact (hn hn').elim
    · rw [he.token he']
      rfl
  | ldgSize =>
    have key : ∀ {e v ks k b r}, Accepts e v .ldgSize ks k b r → ∃ x, b = field 48 x ∧ (meant [.ident c!".32"] ks, x) ∈ ldgCodes := by
      rintro e v ks k b r ⟨-, ⟨k, i, rfl, he, rfl⟩ | ⟨rfl, rfl⟩ | ⟨rfl, -, rfl⟩⟩
      · refine ⟨i, rfl, ?_⟩
        have hl := he.lt
        obtain ⟨n, rfl, hn, -⟩ := he
        simp only [List.length_cons, List.length_nil] at hl
        have hi : i = 0 ∨ i = 1 ∨ i = 2 ∨ i = 3 ∨ i = 4 ∨ i = 5 ∨ i = 6 := by omega
        rcases hi with rfl | rfl | rfl | rfl | rfl | rfl | rfl <;> simp at hn <;> subst hn <;> simp [meant, ldgCodes]
      · exact ⟨7, rfl, by simp [meant, ldgCodes]⟩
      · exact ⟨4, rfl, by simp [meant, ldgCodes]⟩
    obtain ⟨x, rfl, hx⟩ := key h
    obtain ⟨x', rfl, hx'⟩ := key h'
    obtain rfl := field_inj (w := 3) (by omega) (ldg_codes _ hx).1 (ldg_codes _ hx').1 (hb 48 3 (by simp [Operand.own, Operand.fields]) (by omega))
    exact (ldg_codes _ hx).2 _ hx' rfl
  | atomicSize a =>
    simp [Operand.readable, Operand.flagless, Operand.fields] at ho
    have key : ∀ {e v ks k b r}, Accepts e v (.atomicSize a) ks k b r → ∃ x, b = field a x ∧ (meant [.ident c!".U32"] ks, x) ∈ atomicCodes := by
      rintro e v ks k b r ⟨-, ⟨s, x, hm, rfl, rfl⟩ | ⟨rfl, rfl⟩ | ⟨rfl, rfl⟩ | ⟨rfl, -, rfl⟩⟩
      · refine ⟨x, rfl, ?_⟩
        simp only [List.mem_cons, Prod.mk.injEq, List.not_mem_nil, or_false] at hm
        rcases hm with ⟨rfl, rfl⟩ | ⟨rfl, rfl⟩ | ⟨rfl, rfl⟩ | ⟨rfl, rfl⟩ <;> simp [meant, atomicCodes]
      · exact ⟨3, rfl, by simp [meant, atomicCodes]⟩
      · exact ⟨4, rfl, by simp [meant, atomicCodes]⟩
      · exact ⟨0, (field_zero _).symm, by simp [meant, atomicCodes]⟩
    obtain ⟨x, rfl, hx⟩ := key h
    obtain ⟨x', rfl, hx'⟩ := key h'
    obtain rfl := field_inj (w := 3) (by omega) (atomic_codes _ hx).1 (atomic_codes _ hx').1 (hb a 3 (by simp [Operand.own, Operand.fields]) (by omega))
    exact (atomic_codes _ hx).2 _ hx' rfl
  | srcFormat a c =>
    simp [Operand.readable, Operand.flagless, Operand.fields, apartList, Field.apart] at ho
    have key : ∀ {e v ks k b r}, Accepts e v (.srcFormat a c) ks k b r → ∃ x z, b = field a x ||| field c z ∧
        (meant [.ident c!".S32"] ks, x, z) ∈ formatCodes := by
      rintro e v ks k b r ⟨-, ⟨k, i, rfl, he, rfl⟩ | ⟨s, x, hm, rfl, rfl⟩ | ⟨rfl, -, rfl⟩⟩
      · refine ⟨i, 1, rfl, ?_⟩
        have hl := he.lt
        obtain ⟨n, rfl, hn, -⟩ := he
        simp only [List.length_cons, List.length_nil] at hl
        have hi : i = 0 ∨ i = 1 ∨ i = 2 ∨ i = 3 := by omega
        rcases hi with rfl | rfl | rfl | rfl <;> simp at hn <;> subst hn <;> simp [meant, formatCodes]
      · refine ⟨x, 0, by simp [field_zero], ?_⟩
        simp only [List.mem_cons, Prod.mk.injEq, List.not_mem_nil, or_false] at hm
        rcases hm with ⟨rfl, rfl⟩ | ⟨rfl, rfl⟩ | ⟨rfl, rfl⟩ <;> simp [meant, formatCodes]
      · exact ⟨3, 1, rfl, by simp [meant, formatCodes]⟩
    obtain ⟨x, z, rfl, hx⟩ := key h
    obtain ⟨x', z', rfl, hx'⟩ := key h'
    have h1 := format_codes _ hx
    have h2 := format_codes _ hx'
    obtain ⟨rfl, rfl⟩ := bits_pair (u := 2) (w := 1) (by omega) (by omega) h1.1 h1.2.1 h2.1 h2.2.1 (by omega)
      (hb a 2 (by simp [Operand.own, Operand.fields]) (by omega)) (hb c 1 (by simp [Operand.own, Operand.fields]) (by omega))
    exact h1.2.2 _ hx' rfl
  | immFormat a =>
    simp [Operand.readable, Operand.flagless, Operand.fields] at ho
    exact modifier_same (d := some 1) (w := 1) (by omega) (by decide) h h' (hb a 1 (by simp [Operand.own, Operand.fields]) (by omega))
  | texType a =>
    simp [Operand.readable, Operand.inside] at ho
    obtain ⟨-, x, i, rfl, he, rfl⟩ := h
    obtain ⟨-, x', i', rfl, he', rfl⟩ := h'
    have h1 := he.lt
    have h2 := he'.lt
    simp only [List.length_cons, List.length_nil] at h1 h2
    obtain rfl := field_inj (w := 3) (by omega) (by omega) (by omega) (hb a 3 (by simp [Operand.own, Operand.fields]) (by omega))
    rw [he.token he']
    rfl
  | zero =>
    obtain ⟨-, rfl, -⟩ := h
    obtain ⟨-, rfl, -⟩ := h'
    rfl
  | texsMode a =>
    simp [Operand.readable, Operand.flagless, Operand.fields] at ho
    have key : ∀ {e v ks k b r}, Accepts e v (.texsMode a) ks k b r → ∃ x, b = field a x ∧ (ks, x) ∈ texsModeCodes := by
      rintro e v ks k b r ⟨-, lod, dc, x, y, rfl, rfl, hx, hy⟩
      refine ⟨_, rfl, ?_⟩
      rcases hx with ⟨rfl, rfl⟩ | ⟨rfl, rfl⟩ | ⟨rfl, -, -, rfl⟩ <;> rcases hy with ⟨rfl, rfl⟩ | ⟨rfl, -, rfl⟩ <;> simp [texsModeCodes]
    obtain ⟨x, rfl, hx⟩ := key h
    obtain ⟨x', rfl, hx'⟩ := key h'
    obtain rfl := field_inj (w := 3) (by omega) (texsMode_codes _ hx).1 (texsMode_codes _ hx').1 (hb a 3 (by simp [Operand.own, Operand.fields]) (by omega))
    exact (texsMode_codes _ hx).2 _ hx' rfl
  | tldsType a => simp [Operand.readable] at ho
  | texsType a => simp [Operand.readable] at ho
  | texsSwizzle =>
    have h2 := hv 28 8 (by simp [Operand.looks])
    obtain ⟨-, x, i, rfl, rfl, he⟩ := h
    obtain ⟨-, x', i', rfl, rfl, he'⟩ := h'
    rw [← h2] at he'
    have h3 : i < 8 := by have := he.lt; split at this <;> simp at this <;> omega
    have h4 : i' < 8 := by have := he'.lt; split at this <;> simp at this <;> omega
    obtain rfl := field_inj (w := 3) (by omega) (by omega) (by omega) (hb 50 3 (by simp [Operand.own, Operand.fields]) (by omega))
    rw [he.token he']
    rfl

/-- The operand can be read back from the instruction: no other operand sets its own bits, and no operand from it on
    sets the bits it looks at. -/
def Insn.ownsAlone (row : Insn) (j : Nat) : Bool :=
  match row.operands[j]? with
  | none => false
  | some o => o.readable &&
      ((row.operands.take j ++ row.operands.drop (j + 1)).all fun o' => o.own.all fun f => o'.fields.all f.apart) &&
      ((row.operands.drop j).all fun o' => o.looks.all fun f => o'.fields.all f.apart && decide (f.1 + f.2 ≤ 64))

theorem own_fields (o : Operand) {p : Nat} (h : inF o.own p) : inF o.fields p := by
  induction o with
  | uimmExtended =>
    obtain ⟨f, hf, h⟩ := h
    simp only [Operand.own, List.mem_cons, List.not_mem_nil, or_false] at hf
    rcases hf with rfl | rfl
    · exact ⟨(20, 20), by simp [Operand.fields], by simp at h ⊢; omega⟩
    · exact ⟨(56, 1), by simp [Operand.fields], h⟩
  | abs a inner ih =>
    obtain ⟨f, hf, h⟩ := h
    simp only [Operand.own, List.mem_cons] at hf
    rcases hf with rfl | hf
    · exact ⟨(a, 1), by simp [Operand.fields], h⟩
    · obtain ⟨g, hg, h⟩ := ih ⟨f, hf, h⟩
      exact ⟨g, by simp [Operand.fields, hg], h⟩
  | _ => exact h

end Nxas
