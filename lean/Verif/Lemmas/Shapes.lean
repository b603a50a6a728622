import Verif.Spec.Syntax
import Verif.Lemmas.Distinct
/-
The tokens that an operand may consist of, up to the values of registers and numbers, and a check that no tokens fit two
lists of operands.
-/

namespace Nxas

open Spec

/-- A token up to its value: `imm` is a number, in a range if one is given, and `out` a number outside of a range. -/
inductive Pat where
  | tok (k : Kind)
  | reg | pred | fimm | word
  | imm (range : Option (Int × Int))
  | out (lo hi : Int)
  deriving DecidableEq, Repr

/-- A word of a table. -/
def Pat.ofWords (pfx : Str) (t : List Str) : List (List Pat) := t.map fun s => [.tok (.ident (pfx ++ s))]
/-- A certain word. -/
def Pat.w (s : Str) : Pat := .tok (.ident s)

/-- A word. -/
def isWord : Kind → Bool
  | .ident _ => true
  | _ => false

/-- The range is inside of another one. -/
def within (r : Option (Int × Int)) (lo hi : Int) : Bool :=
  match r with
  | some (lo', hi') => decide (lo ≤ lo') && decide (hi' ≤ hi)
  | none => false

/-- Some token may be of both kinds, if `true` is the answer. -/
def meets (p q : Pat) : Bool :=
  match p with
  | .tok a => match q with
    | .tok b => a == b
    | .word => isWord a
    | _ => false
  | .word => match q with
    | .tok b => isWord b
    | .word => true
    | _ => false
  | .imm r => match q with
    | .imm _ => true
    | .out lo hi => !within r lo hi
    | _ => false
  | .out lo hi => match q with
    | .imm r => !within r lo hi
    | .out .. => true
    | _ => false
  | p => p == q

def memShapes (i : Bool) : List (List Pat) :=
  ([[], [.reg], [.reg, .w c!".reuse"]] : List (List Pat)).flatMap fun b =>
    (if i then [[], [.imm none]] else [[]] : List (List Pat)).map fun o => .tok .lbracket :: (b ++ (o ++ [.tok .rbracket]))

def floatShapes : List (List Pat) := [[.fimm], [.imm none], [.w c!"QNAN"], [.w c!"INF"], [.tok .plus, .w c!"QNAN"], [.tok .plus, .w c!"INF"],
  [.tok .minus, .w c!"QNAN"], [.tok .minus, .w c!"INF"]]

def regShapes : List (List Pat) := [[.reg, .w c!".reuse"], [.reg]]

/-- The tokens of an operand; more than those that are accepted. -/
def shapes : Operand → List (List Pat)
  | .flag s _ => [[.w s], []]
  | .uint m _ => [[.imm (some (0, m))]]
  | .sint w _ => [[.imm (some (-(2 ^ (w - 1)), 2 ^ (w - 1) - 1))]]
  | .uimmExtended => [[.imm (some (0, 2 ^ 20))]]
  | .imm20 => [[.imm (some (-(2 ^ 19), 2 ^ 19 - 1))]]
  | .zero => [[.imm (some (0, 0))]]
  | .dotTable d _ t => Pat.ofWords c!"." t ++ (if d.isSome then [[]] else [])
  | .comma => [[.tok .comma]]
  | .label => [[.word], [.imm none]]
  | .gpr _ | .mirrorGpr _ => regShapes
  | .cbuf => [[.w c!"c", .tok .lbracket, .imm (some (0, 31)), .tok .rbracket, .tok .lbracket, .imm (some (-(2 ^ 15), 2 ^ 15 - 1)), .tok .rbracket]]
  | .fimm _ | .dimm20 | .himm .. => floatShapes
  | .bop _ => Pat.ofWords c!"." [c!"AND", c!"OR", c!"XOR", c!"INVALIDBOP3"]
  | .pred .. | .invertedPred _ => [[.pred]]
  | .neg _ => [[.tok .minus], []]
  | .tilde _ => [[.tok .tilde], []]
  | .abs _ o => shapes o ++ (shapes o).map fun s => .tok .vbar :: (s ++ [.tok .vbar])
  | .po .. => [[.w c!".PO"], []]
  | .defaultRz _ => [[]]
  | .memAddress i .. => memShapes i
  | .ccTests _ t => (Pat.ofWords c!"." t).map (.w c!"CC" :: ·) ++ [[]]
  | .expect s .. => [[.w s]]
  | .optText s => [[.w s], []]
  | .immAttr => [[.w c!"a", .tok .lbracket, .imm (some (0, 1023)), .tok .rbracket]]
  | .patchAttr => ([[], [.tok .plus], [.w c!".reuse"], [.w c!".reuse", .tok .plus]] : List (List Pat)).map fun m =>
      .w c!"a" :: .tok .lbracket :: .reg :: (m ++ [.imm (some (-(2 ^ 10), 2 ^ 10 - 1)), .tok .rbracket])
  | .physAttr => [[.w c!"a", .tok .lbracket, .reg, .tok .rbracket], [.w c!"a", .tok .lbracket, .reg, .w c!".reuse", .tok .rbracket]]
  | .xmadSigns => [[], [.w c!".S16", .w c!".S16"], [.w c!".S16", .w c!".U16"], [.w c!".U16", .w c!".S16"], [.w c!".U16", .w c!".U16"]]
  | .f2fRounding => [] :: Pat.ofWords c!"." [c!"ROUND", c!"FLOOR", c!"CEIL", c!"TRUNC", c!"PASS", c!"RN", c!"RM", c!"RP", c!"RZ"]
  | .intFormat u s .. => Pat.ofWords c!"." (u ++ s)
  | .plainTable _ t => Pat.ofWords [] t
  | .selector _ _ _ ss bs => [] :: Pat.ofWords c!"." (ss ++ bs)
  | .ldcAddress => (memShapes true).map ([.w c!"c", .tok .lbracket, .imm (some (0, 31)), .tok .rbracket] ++ ·)
  | .s2r t => [[.w c!"SR_TID"], [.w c!"SR_TID", .w c!".X"], [.w c!"SR_TID", .w c!".Y"], [.w c!"SR_TID", .w c!".Z"],
      [.w c!"SR_CTAID", .w c!".X"], [.w c!"SR_CTAID", .w c!".Y"], [.w c!"SR_CTAID", .w c!".Z"]] ++ Pat.ofWords [] t
  | .ldgSize => [[], [.w c!".U", .w c!".128"]] ++ Pat.ofWords c!"." [c!"U8", c!"S8", c!"U16", c!"S16", c!"32", c!"64", c!"128"]
  | .atomicSize _ => [[], [.w c!".F32", .w c!".FTZ", .w c!".RN"], [.w c!".F16x2", .w c!".RN"]] ++ Pat.ofWords c!"." [c!"U32", c!"S32", c!"U64", c!"S64"]
  | .srcFormat .. => [] :: Pat.ofWords c!"." [c!"S8", [], c!"S16", c!"S32", c!"U8", c!"U16", c!"U32"]
  | .immFormat _ => [] :: Pat.ofWords c!"." [c!"U16", c!"S16"]
  | .texType _ => Pat.ofWords [] [c!"1D", c!"ARRAY_1D", c!"2D", c!"ARRAY_2D", c!"3D", c!"ARRAY_3D", c!"CUBE", c!"ARRAY_CUBE"]
  | .texsMode _ => ([[], [.w c!".LZ"], [.w c!".LL"]] : List (List Pat)).flatMap fun l => [l, l ++ [.w c!".DC"]]
  | .tldsType _ | .texsType _ => Pat.ofWords [] [c!"1D", c!"2D", c!"3D", c!"ARRAY_2D", c!"CUBE"]
  | .texsSwizzle => Pat.ofWords [] [c!"R", c!"G", c!"B", c!"A", c!"RG", c!"RA", c!"GA", c!"BA", c!"RGB", c!"RGA", c!"RBA", c!"GBA", c!"RGBA"]


/-- The token has no value and may be part of an operand. -/
def plain : Kind → Bool
  | .reg _ | .pred .. | .imm _ | .fimm _ | .at | .none => false
  | _ => true

/-- The token is of this kind. -/
def Pat.fits (p : Pat) (x : Kind) : Prop :=
  match p with
  | .tok k => k = x ∧ plain x = true
  | .reg => ∃ n, .reg n = x
  | .pred => ∃ n b, .pred n b = x
  | .imm r => ∃ v, .imm v = x ∧ ∀ lo hi, r = some (lo, hi) → lo ≤ v ∧ v ≤ hi
  | .out lo hi => ∃ v, .imm v = x ∧ ¬ (lo ≤ v ∧ v ≤ hi)
  | .fimm => ∃ v, .fimm v = x
  | .word => ∃ s, .ident s = x

/-- The tokens are of these kinds. -/
def fitsAll : List Pat → List Kind → Prop
  | [], [] => True
  | p :: s, k :: ks => p.fits k ∧ fitsAll s ks
  | _, _ => False

theorem Pat.fits_at (p : Pat) : ¬ p.fits .at := by
  intro h
  cases p with
  | tok a => obtain ⟨rfl, h⟩ := h; cases h
  | pred => obtain ⟨n, b, h⟩ := h; cases h
  | imm | out => obtain ⟨n, h, -⟩ := h; cases h
  | _ => obtain ⟨n, h⟩ := h; cases h

theorem within_out {r : Option (Int × Int)} {lo hi v : Int} (h : ∀ a b, r = some (a, b) → a ≤ v ∧ v ≤ b) (hv : ¬ (lo ≤ v ∧ v ≤ hi)) :
    within r lo hi = false := by
  cases r with
  | none => rfl
  | some p =>
    obtain ⟨a, b⟩ := p
    obtain ⟨h1, h2⟩ := h a b rfl
    rw [within, Bool.and_eq_false_iff, decide_eq_false_iff_not, decide_eq_false_iff_not]
    omega

theorem meets_of {p q : Pat} {k : Kind} (hp : p.fits k) (hq : q.fits k) : meets p q = true := by
  cases p with
  | tok a =>
    obtain ⟨rfl, hp⟩ := hp
    cases q with
    | tok b => obtain ⟨rfl, -⟩ := hq; exact beq_self_eq_true _
    | word => obtain ⟨s, rfl⟩ := hq; rfl
    | pred => obtain ⟨n, b, rfl⟩ := hq; cases hp
    | imm | out => obtain ⟨n, rfl, -⟩ := hq; cases hp
    | _ => obtain ⟨n, rfl⟩ := hq; cases hp
  | word =>
    obtain ⟨s, rfl⟩ := hp
    cases q with
    | tok b => obtain ⟨rfl, -⟩ := hq; rfl
    | word => rfl
    | pred => obtain ⟨n, b, hq⟩ := hq; cases hq
    | imm | out => obtain ⟨n, hq, -⟩ := hq; cases hq
    | _ => obtain ⟨n, hq⟩ := hq; cases hq
  | pred =>
    obtain ⟨n, b, rfl⟩ := hp
    cases q with
    | tok b => obtain ⟨rfl, hq⟩ := hq; cases hq
    | pred => rfl
    | imm | out => obtain ⟨n, hq, -⟩ := hq; cases hq
    | _ => obtain ⟨n, hq⟩ := hq; cases hq
  | imm r =>
    obtain ⟨n, rfl, h⟩ := hp
    cases q with
    | tok b => obtain ⟨rfl, hq⟩ := hq; cases hq
    | pred => obtain ⟨n, b, hq⟩ := hq; cases hq
    | imm => rfl
    | out lo hi => obtain ⟨m, he, h'⟩ := hq; cases he; simp [meets, within_out h h']
    | _ => obtain ⟨n, hq⟩ := hq; cases hq
  | out lo hi =>
    obtain ⟨n, rfl, h⟩ := hp
    cases q with
    | tok b => obtain ⟨rfl, hq⟩ := hq; cases hq
    | pred => obtain ⟨n, b, hq⟩ := hq; cases hq
    | imm r => obtain ⟨m, he, h'⟩ := hq; cases he; simp [meets, within_out h' h]
    | out => rfl
    | _ => obtain ⟨n, hq⟩ := hq; cases hq
  | _ =>
    obtain ⟨n, rfl⟩ := hp
    cases q with
    | tok b => obtain ⟨rfl, hq⟩ := hq; cases hq
    | pred => obtain ⟨n, b, hq⟩ := hq; cases hq
    | imm | out => obtain ⟨n, hq, -⟩ := hq; cases hq
    | _ => first | rfl | (obtain ⟨n, hq⟩ := hq; cases hq)

/-- A number of a range. -/
theorem fits_imm {lo hi v : Int} (h : lo ≤ v ∧ v ≤ hi) : (Pat.imm (some (lo, hi))).fits (.imm v) :=
  ⟨v, rfl, fun a b he => by simp only [Option.some.injEq, Prod.mk.injEq] at he; omega⟩

theorem fits_any (v : Int) : (Pat.imm none).fits (.imm v) := ⟨v, rfl, nofun⟩

theorem meets_self (p : Pat) : meets p p = true := by
  cases p <;> simp [meets]

theorem fitsAll_append {s s' : List Pat} {ks ks' : List Kind} (h : fitsAll s ks) (h' : fitsAll s' ks') :
    fitsAll (s ++ s') (ks ++ ks') := by
  induction s generalizing ks with
  | nil => cases ks with
    | nil => exact h'
    | cons => exact h.elim
  | cons p s ih => cases ks with
    | nil => exact h.elim
    | cons k ks => exact ⟨h.1, ih h.2⟩

/-! ### Operands -/

theorem ofWords_mem {pfx : Str} {t : List Str} {k : Kind} {i : Nat} (h : Entry pfx t k i) :
    ∃ s ∈ Pat.ofWords pfx t, fitsAll s [k] := by
  obtain ⟨name, rfl, h1, -⟩ := h
  exact ⟨_, List.mem_map.2 ⟨name, List.mem_of_getElem? h1, rfl⟩, ⟨rfl, rfl⟩, trivial⟩

theorem reuse_shape {a : Nat} {ks : List Kind} {k' : Kind} {r : BitVec 32} (h : Spec.reuse a ks k' r) :
    ∃ s ∈ [[Pat.w c!".reuse"], []], fitsAll s ks := by
  rcases h with ⟨rfl, -⟩ | ⟨rfl, -⟩
  · exact ⟨_, List.mem_cons_self, ⟨rfl, rfl⟩, trivial⟩
  · exact ⟨[], by simp, trivial⟩

theorem optWord_shape {s : Str} {b0 b : BitVec 64} {ks : List Kind} {k' : Kind} {r : BitVec 32} (h : optWord s b0 ks k' b r) :
    ∃ p ∈ [[Pat.w s], []], fitsAll p ks := by
  rcases h with ⟨-, ⟨rfl, -⟩ | ⟨rfl, -⟩⟩
  · exact ⟨_, List.mem_cons_self, ⟨rfl, rfl⟩, trivial⟩
  · exact ⟨[], by simp, trivial⟩

theorem register_shape {a : Nat} {ks : List Kind} {k' : Kind} {b : BitVec 64} {r : BitVec 32} (h : register a ks k' b r) :
    ∃ p ∈ regShapes, fitsAll p ks := by
  obtain ⟨n, rest, rfl, -, h⟩ := h
  obtain ⟨s, hs, h⟩ := reuse_shape h
  exact ⟨.reg :: s, by simpa [regShapes] using hs, ⟨_, rfl⟩, h⟩

theorem modifier_shape {d : Option Nat} {a : Nat} {t : List Str} {ks : List Kind} {k' : Kind} {b : BitVec 64} {r : BitVec 32}
    (h : modifier d a t ks k' b r) : ∃ p ∈ Pat.ofWords c!"." t ++ (if d.isSome then [[]] else []), fitsAll p ks := by
  rcases h with ⟨-, ⟨k, i, rfl, h, -⟩ | ⟨d', rfl, rfl, -⟩⟩
  · obtain ⟨s, hs, h⟩ := ofWords_mem h
    exact ⟨s, List.mem_append_left _ hs, h⟩
  · exact ⟨[], by simp, trivial⟩

theorem floatText_shape {n : Nat} {f : BitVec 32 → BitVec n} {g : Int → BitVec n} {q i : BitVec n} {ks : List Kind} {neg : Bool}
    {x : BitVec n} (h : FloatText n f g q i ks neg x) : ∃ p ∈ floatShapes, fitsAll p ks := by
  cases h with
  | float => exact ⟨[.fimm], by simp [floatShapes], ⟨_, rfl⟩, trivial⟩
  | int => exact ⟨[.imm none], by simp [floatShapes], fits_any _, trivial⟩
  | word h =>
    rcases h with ⟨rfl, -⟩ | ⟨rfl, -⟩
    · exact ⟨[.w c!"QNAN"], by simp [floatShapes], ⟨rfl, rfl⟩, trivial⟩
    · exact ⟨[.w c!"INF"], by simp [floatShapes], ⟨rfl, rfl⟩, trivial⟩
  | plus h =>
    rcases h with ⟨rfl, -⟩ | ⟨rfl, -⟩
    · exact ⟨[.tok .plus, .w c!"QNAN"], by simp [floatShapes], ⟨rfl, rfl⟩, ⟨rfl, rfl⟩, trivial⟩
    · exact ⟨[.tok .plus, .w c!"INF"], by simp [floatShapes], ⟨rfl, rfl⟩, ⟨rfl, rfl⟩, trivial⟩
  | minus h =>
    rcases h with ⟨rfl, -⟩ | ⟨rfl, -⟩
    · exact ⟨[.tok .minus, .w c!"QNAN"], by simp [floatShapes], ⟨rfl, rfl⟩, ⟨rfl, rfl⟩, trivial⟩
    · exact ⟨[.tok .minus, .w c!"INF"], by simp [floatShapes], ⟨rfl, rfl⟩, ⟨rfl, rfl⟩, trivial⟩

theorem memory_shape {im : Bool} {a b c : Nat} {ks : List Kind} {k' : Kind} {v : BitVec 64} {r : BitVec 32} (h : memory im a b c ks k' v r) :
    ∃ p ∈ memShapes im, fitsAll p ks := by
  obtain ⟨n, base, off, rfl, hb, ho⟩ := h
  have h1 : ∃ p ∈ ([[], [.reg], [.reg, .w c!".reuse"]] : List (List Pat)), fitsAll p base := by
    rcases hb with ⟨rest, rfl, h⟩ | ⟨rfl, -⟩
    · obtain ⟨s, hs, h⟩ := reuse_shape h
      exact ⟨.reg :: s, by simp at hs; rcases hs with rfl | rfl <;> simp, ⟨_, rfl⟩, h⟩
    · exact ⟨[], by simp, trivial⟩
  have h2 : ∃ p ∈ (if im then [[], [.imm none]] else [[]] : List (List Pat)), fitsAll p off := by
    rcases ho with ⟨rfl, -⟩ | ⟨rfl, y, rfl, -⟩
    · exact ⟨[], by split <;> simp, trivial⟩
    · exact ⟨[.imm none], by simp, fits_any _, trivial⟩
  obtain ⟨p, hp, h1⟩ := h1
  obtain ⟨q, hq, h2⟩ := h2
  refine ⟨_, List.mem_flatMap.2 ⟨p, hp, List.mem_map.2 ⟨q, hq, rfl⟩⟩, ⟨rfl, rfl⟩, fitsAll_append h1 (fitsAll_append h2 ?_)⟩
  exact ⟨⟨rfl, rfl⟩, trivial⟩

/-- strip a common prefix: `none` if the two differ -/
def strip : List Pat → List Pat → Option (List Pat × List Pat)
  | [], b => some ([], b)
  | a, [] => some (a, [])
  | a :: as, b :: bs => if meets a b then strip as bs else none

/-- `true` if surely nothing fits both. -/
def apart : Nat → List Pat → List Operand → List Pat → List Operand → Bool
  | 0, _, _, _, _ => false
  | n + 1, [], o :: os, [], o' :: os' =>
    if o = o' then
      apart n [] os [] os' && (shapes o).all fun s => (shapes o).all fun s' => s == s' ||
        match strip s s' with
        | none => true
        | some (a, b) => apart n a os b os'
    else (shapes o).all fun s => (shapes o').all fun s' => match strip s s' with
        | none => true
        | some (a, b) => apart n a os b os'
  | n + 1, [], o :: os, b :: bs, os' => (shapes o).all fun s => match strip s (b :: bs) with
        | none => true
        | some (a, b) => apart n a os b os'
  | n + 1, a :: as, os, [], o' :: os' => (shapes o').all fun s' => match strip (a :: as) s' with
        | none => true
        | some (a, b) => apart n a os b os'
  | _ + 1, [], [], b, os' => !(b.isEmpty && os'.all fun o => (shapes o).contains [])
  | _ + 1, a, os, [], [] => !(a.isEmpty && os.all fun o => (shapes o).contains [])
  | n + 1, a, os, b, os' => match strip a b with
        | none => true
        | some (a, b) => apart n a os b os'

theorem shapes_of {e : Env} {o : Operand} {v b : BitVec 64} {ks : List Kind} {k' : Kind} {r : BitVec 32}
    (h : Accepts e v o ks k' b r) : ∃ p ∈ shapes o, fitsAll p ks := by
  induction o generalizing v b ks k' r with
  | flag s a => exact optWord_shape h
  | po => exact optWord_shape h
  | optText => exact optWord_shape h
  | uint => obtain ⟨-, x, rfl, h, -⟩ := h; exact ⟨_, List.mem_cons_self, fits_imm ⟨by omega, h⟩, trivial⟩
  | sint => obtain ⟨-, x, rfl, h1, h2, -⟩ := h; exact ⟨_, List.mem_cons_self, fits_imm ⟨h1, by omega⟩, trivial⟩
  | uimmExtended => obtain ⟨-, x, rfl, h, -⟩ := h; exact ⟨_, List.mem_cons_self, fits_imm ⟨by omega, by omega⟩, trivial⟩
  | imm20 => obtain ⟨-, x, rfl, h1, h2, -⟩ := h; exact ⟨_, List.mem_cons_self, fits_imm ⟨h1, by omega⟩, trivial⟩
  | zero => obtain ⟨-, rfl, -⟩ := h; exact ⟨_, List.mem_cons_self, fits_imm ⟨by omega, by omega⟩, trivial⟩
  | dotTable => exact modifier_shape h
  | comma => obtain ⟨-, rfl, -⟩ := h; exact ⟨_, List.mem_cons_self, ⟨rfl, rfl⟩, trivial⟩
  | label =>
    obtain ⟨-, t, h, -⟩ := h
    rcases h with ⟨s, a, rfl, -⟩ | rfl
    · exact ⟨[.word], by simp [shapes], ⟨_, rfl⟩, trivial⟩
    · exact ⟨[.imm none], by simp [shapes], fits_any _, trivial⟩
  | gpr => exact register_shape h
  | mirrorGpr =>
    obtain ⟨-, n, rest, rfl, -, h⟩ := h
    obtain ⟨s, hs, h⟩ := reuse_shape h
    exact ⟨.reg :: s, by simpa [shapes, regShapes] using hs, ⟨_, rfl⟩, h⟩
  | cbuf =>
    obtain ⟨-, x, y, rfl, h1, h2, h3, -⟩ := h
    exact ⟨_, List.mem_cons_self, ⟨rfl, rfl⟩, ⟨rfl, rfl⟩, fits_imm ⟨by omega, by omega⟩, ⟨rfl, rfl⟩, ⟨rfl, rfl⟩, fits_imm ⟨h2, by omega⟩, ⟨rfl, rfl⟩, trivial⟩
  | fimm => obtain ⟨-, n, x, h, -⟩ := h; exact floatText_shape h
  | dimm20 => obtain ⟨-, n, x, h, -⟩ := h; exact floatText_shape h
  | himm => obtain ⟨-, n, x, h, -⟩ := h; exact floatText_shape h
  | bop => obtain ⟨-, k, i, rfl, h, -⟩ := h; exact ofWords_mem h
  | pred => obtain ⟨-, p, n, rfl, -⟩ := h; exact ⟨[.pred], by simp [shapes], ⟨_, _, rfl⟩, trivial⟩
  | invertedPred => obtain ⟨-, p, rfl, -⟩ := h; exact ⟨[.pred], by simp [shapes], ⟨_, _, rfl⟩, trivial⟩
  | neg =>
    rcases h with ⟨-, ⟨rfl, -⟩ | ⟨rfl, -⟩⟩
    · exact ⟨[.tok .minus], by simp [shapes], ⟨rfl, rfl⟩, trivial⟩
    · exact ⟨[], by simp [shapes], trivial⟩
  | tilde =>
    rcases h with ⟨-, ⟨rfl, -⟩ | ⟨rfl, -⟩⟩
    · exact ⟨[.tok .tilde], by simp [shapes], ⟨rfl, rfl⟩, trivial⟩
    · exact ⟨[], by simp [shapes], trivial⟩
  | abs a inner ih =>
    rcases h with ⟨ks1, b1, rfl, -, h⟩ | ⟨-, h⟩
    · obtain ⟨p, hp, h⟩ := ih h
      exact ⟨_, List.mem_append_right _ (List.mem_map.2 ⟨p, hp, rfl⟩), ⟨rfl, rfl⟩, fitsAll_append h ⟨⟨rfl, rfl⟩, trivial⟩⟩
    · obtain ⟨p, hp, h⟩ := ih h
      exact ⟨p, List.mem_append_left _ hp, h⟩
  | defaultRz => obtain ⟨-, rfl, -⟩ := h; exact ⟨[], by simp [shapes], trivial⟩
  | memAddress => exact memory_shape h
  | ccTests =>
    rcases h with ⟨-, ⟨k, i, rfl, h, -⟩ | ⟨rfl, -⟩⟩
    · obtain ⟨s, hs, h⟩ := ofWords_mem h
      exact ⟨_, List.mem_append_left _ (List.mem_map.2 ⟨s, hs, rfl⟩), ⟨rfl, rfl⟩, h⟩
    · exact ⟨[], by simp [shapes], trivial⟩
  | expect => obtain ⟨-, rfl, -⟩ := h; exact ⟨_, List.mem_cons_self, ⟨rfl, rfl⟩, trivial⟩
  | immAttr =>
    obtain ⟨-, x, rfl, h, -⟩ := h
    exact ⟨_, List.mem_cons_self, ⟨rfl, rfl⟩, ⟨rfl, rfl⟩, fits_imm ⟨by omega, by omega⟩, ⟨rfl, rfl⟩, trivial⟩
  | patchAttr =>
    obtain ⟨n, rest, plus, y, rfl, hp, h, hy1, hy2, -⟩ := h
    obtain ⟨s, hs, h⟩ := reuse_shape h
    have h2 : ∃ p ∈ ([[], [.tok .plus]] : List (List Pat)), fitsAll p plus := by
      rcases hp with rfl | rfl
      · exact ⟨[], by simp, trivial⟩
      · exact ⟨[.tok .plus], by simp, ⟨rfl, rfl⟩, trivial⟩
    obtain ⟨q, hq, h2⟩ := h2
    refine ⟨.w c!"a" :: .tok .lbracket :: .reg :: (s ++ (q ++ [.imm (some (-(2 ^ 10), 2 ^ 10 - 1)), .tok .rbracket])), ?_, ⟨rfl, rfl⟩, ⟨rfl, rfl⟩, ⟨_, rfl⟩,
      fitsAll_append h (fitsAll_append h2 (s := q) (s' := [.imm (some (-(2 ^ 10), 2 ^ 10 - 1)), .tok .rbracket]) (ks' := [.imm y, .rbracket])
        ⟨fits_imm ⟨hy1, by omega⟩, ⟨rfl, rfl⟩, trivial⟩)⟩
    simp at hs hq
    rcases hs with rfl | rfl <;> rcases hq with rfl | rfl <;> simp [shapes]
  | physAttr =>
    obtain ⟨n, rest, rfl, h, -⟩ := h
    obtain ⟨s, hs, h⟩ := reuse_shape h
    refine ⟨.w c!"a" :: .tok .lbracket :: .reg :: (s ++ [.tok .rbracket]), ?_, ⟨rfl, rfl⟩, ⟨rfl, rfl⟩, ⟨_, rfl⟩,
      fitsAll_append h (s' := [.tok .rbracket]) (ks' := [.rbracket]) ⟨⟨rfl, rfl⟩, trivial⟩⟩
    simp at hs
    rcases hs with rfl | rfl <;> simp [shapes]
  | xmadSigns =>
    rcases h with ⟨-, ⟨x, y, rfl, -⟩ | ⟨rfl, -⟩⟩
    · refine ⟨[.w (if x then c!".S16" else c!".U16"), .w (if y then c!".S16" else c!".U16")], ?_, ⟨rfl, rfl⟩, ⟨rfl, rfl⟩, trivial⟩
      cases x <;> cases y <;> simp [shapes]
    · exact ⟨[], by simp [shapes], trivial⟩
  | f2fRounding =>
    simp only [Accepts] at h
    split at h
    · rcases h with ⟨-, ⟨k, s, x, rfl, hs, rfl, -⟩ | ⟨rfl, -⟩⟩
      · refine ⟨[.w s], ?_, ⟨rfl, rfl⟩, trivial⟩
        simp only [List.mem_cons, Prod.mk.injEq, List.not_mem_nil, or_false] at hs
        rcases hs with ⟨rfl, -⟩ | ⟨rfl, -⟩ | ⟨rfl, -⟩ | ⟨rfl, -⟩ | ⟨rfl, -⟩ <;> simp [shapes, Pat.ofWords, Pat.w]
      · exact ⟨[], by simp [shapes], trivial⟩
    · obtain ⟨p, hp, h⟩ := modifier_shape h
      refine ⟨p, ?_, h⟩
      simp only [shapes, Pat.ofWords] at hp ⊢
      simp at hp ⊢
      grind
  | intFormat u s =>
    obtain ⟨-, k, i, rfl, h⟩ := h
    have : ∃ p ∈ Pat.ofWords c!"." u ++ Pat.ofWords c!"." s, fitsAll p [k] := by
      rcases h with ⟨h, -⟩ | ⟨-, h, -⟩
      · obtain ⟨p, hp, h⟩ := ofWords_mem h; exact ⟨p, List.mem_append_left _ hp, h⟩
      · obtain ⟨p, hp, h⟩ := ofWords_mem h; exact ⟨p, List.mem_append_right _ hp, h⟩
    simpa [shapes, Pat.ofWords] using this
  | plainTable => obtain ⟨-, k, i, rfl, h, -⟩ := h; exact ofWords_mem h
  | selector a ta short shorts bytes =>
    obtain ⟨p, hp, h⟩ := modifier_shape h
    refine ⟨p, ?_, h⟩
    simp only [shapes, Pat.ofWords] at hp ⊢
    split at hp <;> simp at hp ⊢ <;> grind
  | ldcAddress =>
    obtain ⟨x, rest, b1, rfl, hx, -, h⟩ := h
    obtain ⟨p, hp, h⟩ := memory_shape h
    exact ⟨_, List.mem_map.2 ⟨p, hp, rfl⟩, ⟨rfl, rfl⟩, ⟨rfl, rfl⟩, fits_imm ⟨by omega, by omega⟩, ⟨rfl, rfl⟩, h⟩
  | s2r t =>
    rcases h with ⟨-, ⟨s, x, hs, rfl, -⟩ | ⟨rfl, -⟩ | ⟨s, x, hs, rfl, -⟩ | ⟨k, i, rfl, -, -, h, -⟩⟩
    · refine ⟨[.w c!"SR_TID", .w s], ?_, ⟨rfl, rfl⟩, ⟨rfl, rfl⟩, trivial⟩
      simp only [List.mem_cons, Prod.mk.injEq, List.not_mem_nil, or_false] at hs
      rcases hs with ⟨rfl, -⟩ | ⟨rfl, -⟩ | ⟨rfl, -⟩ <;> simp [shapes]
    · exact ⟨[.w c!"SR_TID"], by simp [shapes], ⟨rfl, rfl⟩, trivial⟩
    · refine ⟨[.w c!"SR_CTAID", .w s], ?_, ⟨rfl, rfl⟩, ⟨rfl, rfl⟩, trivial⟩
      simp only [List.mem_cons, Prod.mk.injEq, List.not_mem_nil, or_false] at hs
      rcases hs with ⟨rfl, -⟩ | ⟨rfl, -⟩ | ⟨rfl, -⟩ <;> simp [shapes]
    · obtain ⟨p, hp, h⟩ := ofWords_mem h
      exact ⟨p, List.mem_append_right _ hp, h⟩
  | ldgSize =>
    rcases h with ⟨-, ⟨k, i, rfl, h, -⟩ | ⟨rfl, -⟩ | ⟨rfl, -⟩⟩
    · obtain ⟨p, hp, h⟩ := ofWords_mem h
      exact ⟨p, List.mem_append_right _ hp, h⟩
    · exact ⟨[.w c!".U", .w c!".128"], by simp [shapes], ⟨rfl, rfl⟩, ⟨rfl, rfl⟩, trivial⟩
    · exact ⟨[], by simp [shapes], trivial⟩
  | atomicSize =>
    rcases h with ⟨-, ⟨s, x, hs, rfl, -⟩ | ⟨rfl, -⟩ | ⟨rfl, -⟩ | ⟨rfl, -⟩⟩
    · refine ⟨[.w s], ?_, ⟨rfl, rfl⟩, trivial⟩
      simp only [List.mem_cons, Prod.mk.injEq, List.not_mem_nil, or_false] at hs
      rcases hs with ⟨rfl, -⟩ | ⟨rfl, -⟩ | ⟨rfl, -⟩ | ⟨rfl, -⟩ <;> simp [shapes, Pat.ofWords, Pat.w]
    · exact ⟨[.w c!".F32", .w c!".FTZ", .w c!".RN"], by simp [shapes], ⟨rfl, rfl⟩, ⟨rfl, rfl⟩, ⟨rfl, rfl⟩, trivial⟩
    · exact ⟨[.w c!".F16x2", .w c!".RN"], by simp [shapes], ⟨rfl, rfl⟩, ⟨rfl, rfl⟩, trivial⟩
    · exact ⟨[], by simp [shapes], trivial⟩
  | srcFormat =>
    rcases h with ⟨-, ⟨k, i, rfl, h, -⟩ | ⟨s, x, hs, rfl, -⟩ | ⟨rfl, -⟩⟩
    · obtain ⟨p, hp, h⟩ := ofWords_mem h
      refine ⟨p, ?_, h⟩
      simp only [shapes, Pat.ofWords] at hp ⊢
      simp at hp ⊢
      grind
    · refine ⟨[.w s], ?_, ⟨rfl, rfl⟩, trivial⟩
      simp only [List.mem_cons, Prod.mk.injEq, List.not_mem_nil, or_false] at hs
      rcases hs with ⟨rfl, -⟩ | ⟨rfl, -⟩ | ⟨rfl, -⟩ <;> simp [shapes, Pat.ofWords, Pat.w]
    · exact ⟨[], by simp [shapes], trivial⟩
  | immFormat =>
    obtain ⟨p, hp, h⟩ := modifier_shape h
    refine ⟨p, ?_, h⟩
    simp only [shapes, Pat.ofWords] at hp ⊢
    simp at hp ⊢
    grind
  | texType => obtain ⟨-, k, i, rfl, h, -⟩ := h; exact ofWords_mem h
  | texsMode =>
    obtain ⟨-, lod, dc, x, y, rfl, -, h1, h2⟩ := h
    have h3 : ∃ p ∈ ([[], [.w c!".LZ"], [.w c!".LL"]] : List (List Pat)), fitsAll p lod := by
      rcases h1 with ⟨rfl, -⟩ | ⟨rfl, -⟩ | ⟨rfl, -⟩
      · exact ⟨[.w c!".LZ"], by simp, ⟨rfl, rfl⟩, trivial⟩
      · exact ⟨[.w c!".LL"], by simp, ⟨rfl, rfl⟩, trivial⟩
      · exact ⟨[], by simp, trivial⟩
    have h4 : ∃ q ∈ ([[], [.w c!".DC"]] : List (List Pat)), fitsAll q dc := by
      rcases h2 with ⟨rfl, -⟩ | ⟨rfl, -⟩
      · exact ⟨[.w c!".DC"], by simp, ⟨rfl, rfl⟩, trivial⟩
      · exact ⟨[], by simp, trivial⟩
    obtain ⟨p, hp, h3⟩ := h3
    obtain ⟨q, hq, h4⟩ := h4
    refine ⟨p ++ q, List.mem_flatMap.2 ⟨p, hp, ?_⟩, fitsAll_append h3 h4⟩
    simp at hq
    rcases hq with rfl | rfl <;> simp
  | tldsType =>
    obtain ⟨-, s, x, rfl, -, h⟩ := h
    refine ⟨[.w s], ?_, ⟨rfl, rfl⟩, trivial⟩
    simp only [tldsCodes, List.mem_cons, Prod.mk.injEq, List.not_mem_nil, or_false] at h
    simp only [shapes, Pat.ofWords, Pat.w, List.map_cons, List.map_nil, List.nil_append, List.mem_cons, List.cons.injEq, Pat.tok.injEq, Kind.ident.injEq, and_true]
    grind
  | texsType =>
    obtain ⟨-, s, x, rfl, -, h⟩ := h
    refine ⟨[.w s], ?_, ⟨rfl, rfl⟩, trivial⟩
    simp only [texsCodes, List.mem_cons, Prod.mk.injEq, List.not_mem_nil, or_false] at h
    simp only [shapes, Pat.ofWords, Pat.w, List.map_cons, List.map_nil, List.nil_append, List.mem_cons, List.cons.injEq, Pat.tok.injEq, Kind.ident.injEq, and_true]
    grind
  | texsSwizzle =>
    obtain ⟨-, k, i, rfl, -, h⟩ := h
    obtain ⟨p, hp, h⟩ := ofWords_mem h
    refine ⟨p, ?_, h⟩
    simp only [shapes, Pat.ofWords] at hp ⊢
    split at hp <;> simp at hp ⊢ <;> grind

/-! ### Lists of operands -/

/-- Tokens of these operands, followed by annotations or nothing. -/
def Fits : List Operand → List Kind → Prop
  | [], ks => ks.headD .at = .at
  | o :: os, ks => ∃ s ∈ shapes o, ∃ k1 k2, ks = k1 ++ k2 ∧ fitsAll s k1 ∧ Fits os k2

/-- The same after a part of an operand. -/
def Left (a : List Pat) (os : List Operand) (ks : List Kind) : Prop := ∃ k1 k2, ks = k1 ++ k2 ∧ fitsAll a k1 ∧ Fits os k2

theorem Left.nil {os : List Operand} {ks : List Kind} : Left [] os ks ↔ Fits os ks := by
  constructor
  · rintro ⟨k1, k2, rfl, h, h'⟩
    cases k1 with
    | nil => exact h'
    | cons => exact h.elim
  · intro h
    exact ⟨[], ks, rfl, trivial, h⟩

theorem Left.cons {p : Pat} {a : List Pat} {os : List Operand} {ks : List Kind} (h : Left (p :: a) os ks) :
    ∃ k ks', ks = k :: ks' ∧ p.fits k ∧ Left a os ks' := by
  obtain ⟨k1, k2, rfl, h, h'⟩ := h
  cases k1 with
  | nil => exact h.elim
  | cons k k1 => exact ⟨k, _, rfl, h.1, k1, k2, rfl, h.2, h'⟩

theorem Fits.cons {o : Operand} {os : List Operand} {ks : List Kind} (h : Left [] (o :: os) ks) : ∃ s ∈ shapes o, Left s os ks := by
  obtain ⟨s, hs, h⟩ := Left.nil.1 h
  exact ⟨s, hs, h⟩

theorem strip_of {a b : List Pat} {os os' : List Operand} {ks : List Kind} (h : Left a os ks) (h' : Left b os' ks) :
    ∃ a' b', strip a b = some (a', b') ∧ ∃ ks, Left a' os ks ∧ Left b' os' ks := by
  induction a generalizing b ks with
  | nil => exact ⟨[], b, by cases b <;> rfl, ks, h, h'⟩
  | cons p a ih =>
    cases b with
    | nil => exact ⟨_, _, rfl, ks, h, h'⟩
    | cons q b =>
      obtain ⟨k, ks', rfl, h1, h2⟩ := h.cons
      obtain ⟨k', ks'', he, h3, h4⟩ := h'.cons
      cases he
      rw [strip, if_pos (meets_of h1 h3)]
      exact ih h2 h4

theorem strip_self (a : List Pat) : strip a a = some ([], []) := by
  induction a with
  | nil => rfl
  | cons p a ih => rw [strip, if_pos (meets_self p), ih]

/-- Nothing but annotations: all operands may be left out. -/
theorem Fits.empty {os : List Operand} {ks : List Kind} (h : Fits os ks) (hk : ks.headD .at = .at) :
    os.all (fun o => (shapes o).contains []) = true := by
  induction os generalizing ks with
  | nil => rfl
  | cons o os ih =>
    obtain ⟨s, hs, k1, k2, rfl, h1, h2⟩ := h
    cases s with
    | nil =>
      cases k1 with
      | nil => rw [List.all_cons, ih h2 hk]; simpa using hs
      | cons => exact h1.elim
    | cons p s =>
      cases k1 with
      | nil => exact h1.elim
      | cons k k1 =>
        cases (hk : k = .at)
        exact (p.fits_at h1.1).elim

theorem Left.empty {b : List Pat} {os : List Operand} {ks : List Kind} (h : Left b os ks) (hk : ks.headD .at = .at) :
    (b.isEmpty && os.all fun o => (shapes o).contains []) = true := by
  cases b with
  | nil => simpa using Fits.empty (Left.nil.1 h) hk
  | cons p b =>
    obtain ⟨k, ks', rfl, h1, -⟩ := h.cons
    cases (hk : k = .at)
    exact (p.fits_at h1).elim

theorem apart_sound {n : Nat} {a b : List Pat} {os os' : List Operand} (h : apart n a os b os' = true) {ks : List Kind}
    (h1 : Left a os ks) (h2 : Left b os' ks) : False := by
  induction n generalizing a b os os' ks with
  | zero => simp [apart] at h
  | succ n ih =>
    have key : ∀ {a b : List Pat} {os os' : List Operand} {ks : List Kind}, Left a os ks → Left b os' ks →
        (match strip a b with | none => true | some (a, b) => apart n a os b os') = true → False := by
      intro a b os os' ks h1 h2 h
      obtain ⟨a', b', hs, ks', h3, h4⟩ := strip_of h1 h2
      rw [hs] at h
      exact ih h h3 h4
    unfold apart at h
    split at h
    · cases ‹_ = _›
    · rename_i heq
      cases heq
      obtain ⟨s, hs, h3⟩ := Fits.cons h1
      obtain ⟨s', hs', h4⟩ := Fits.cons (ks := ks) h2
      split at h
      · rename_i ho
        subst ho
        rw [Bool.and_eq_true] at h
        by_cases he : s = s'
        · subst he
          refine key h3 h4 ?_
          rw [strip_self]
          exact h.1
        · have := List.all_eq_true.1 (List.all_eq_true.1 h.2 s hs) s' hs'
          rw [beq_eq_false_iff_ne.2 he, Bool.false_or] at this
          exact key h3 h4 this
      · exact key h3 h4 (List.all_eq_true.1 (List.all_eq_true.1 h s hs) s' hs')
    · rename_i heq
      cases heq
      obtain ⟨s, hs, h1⟩ := Fits.cons h1
      exact key h1 h2 (List.all_eq_true.1 h s hs)
    · rename_i heq
      cases heq
      obtain ⟨s, hs, h2⟩ := Fits.cons h2
      exact key h1 h2 (List.all_eq_true.1 h s hs)
    · rw [h2.empty (Left.nil.1 h1)] at h
      cases h
    · rw [h1.empty (Left.nil.1 h2)] at h
      cases h
    · have he : n + 1 = _ + 1 := ‹_›
      cases he
      exact key h1 h2 h

theorem sequence_fits {e : Env} {os : List Operand} {v v' : BitVec 64} {ks ks' : List Kind} {k : Kind} {r : BitVec 32}
    (h : Sequence e os v ks k v' r) (ha : ks'.headD .at = .at) : Fits os (ks ++ ks') := by
  induction h with
  | nil => exact ha
  | cons h _ ih =>
    obtain ⟨s, hs, h⟩ := shapes_of h
    exact ⟨s, hs, _, _, List.append_assoc .., h, ih⟩

theorem annots_head {as : List Annot} {ks : List Kind} (h : AnnotsText as ks) : ks.headD .at = .at := by
  cases h with
  | nil => rfl
  | cons h => cases h <;> rfl

theorem rowText_fits {e : Env} {row : Insn} {g : Option (Nat × Bool)} {ks : List Kind} {op : Op} (h : RowText e row g ks op) :
    Fits row.operands ks := by
  cases h with
  | mk hg ho ha => exact sequence_fits ho (annots_head ha)

set_option Elab.async false in
/-- No tokens fit two rows with the same mnemonic. -/
theorem table_apart : insnTable.Pairwise fun a b => a.mnemonic = b.mnemonic → apart 60 [] a.operands [] b.operands = true := by
  decide +kernel

end Nxas
