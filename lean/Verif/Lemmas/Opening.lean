import Verif.Lemmas.Asking
import Verif.Spec.Ending
/-
After which tokens each operand parser asks for another one: those with which an operand begins.
-/

set_option maxRecDepth 2000

namespace Nxas

open Spec

instance : Nonempty Kind := ⟨.none⟩

/-- Operands of one token at most. -/
theorem opens_single {e : Env} {v : BitVec 64} {o : Operand} {k : Kind} {ks : List Kind}
    (h : ∀ x y ks k' b r, ¬ Accepts e v o (x :: y :: ks) k' b r) :
    Opens e v o k ks ↔ ks = [] ∧ ∃ k' b r, Accepts e v o [k] k' b r := by
  constructor
  · rintro ⟨rest, k', b, r, ha⟩
    cases hk : ks ++ rest with
    | cons y l => rw [hk] at ha; exact absurd ha (h _ _ _ _ _ _)
    | nil =>
      rw [hk] at ha
      exact ⟨(List.append_eq_nil_iff.1 hk).1, k', b, r, ha⟩
  · rintro ⟨rfl, k', b, r, ha⟩
    exact ⟨[], k', b, r, ha⟩

/-- An operand of one token at most asks for the next one when it has seen its own. -/
theorem asks_single {e : Env} {v : BitVec 64} {o : Operand} {k : Kind} {ks : List Kind} {p : Kind → Prop}
    (h : ∀ x y ks k' b r, ¬ Accepts e v o (x :: y :: ks) k' b r) (hp : p k ↔ ∃ k' b r, Accepts e v o [k] k' b r) :
    p k ∧ ks = [] ↔ Opens e v o k ks := by
  rw [opens_single h, hp]
  exact and_comm

/-- Close the goal for an operand of one token at most. -/
macro "single" : tactic => `(tactic| (
  rw [opens_single (by simp [Accepts, optWord, modifier])]
  simp only [Accepts, optWord, modifier, List.cons.injEq, and_true, reduceCtorEq, false_and, or_false, and_false, exists_false]))

theorem ask_flag (x : Str) (a : Nat) : Asks (runFlag x a) (fun e v => Opens e v (.flag x a)) := by
  unfold runFlag
  apply Asks.conv
  · ask
  intro e v k ks _
  sema
  single
  grind

theorem ask_uint (m : Int) (a : Nat) : Asks (runUint m a) (fun e v => Opens e v (.uint m a)) := by
  unfold runUint
  apply Asks.conv
  · ask
  intro e v k ks _
  sema
  single
  constructor
  · rintro ⟨x, ⟨rfl, h1, h2⟩, rfl⟩
    obtain ⟨n, rfl⟩ := Int.eq_ofNat_of_zero_le h1
    exact ⟨rfl, .vbar, _, 0, rfl, n, rfl, h2, rfl⟩
  · rintro ⟨rfl, _, _, _, -, x, rfl, h, -⟩
    exact ⟨x, ⟨rfl, by omega, h⟩, rfl⟩

theorem ask_sint (w a : Nat) : Asks (runSint w a) (fun e v => Opens e v (.sint w a)) := by
  unfold runSint
  apply Asks.conv
  · ask
  intro e v k ks _
  sema
  single
  constructor
  · rintro ⟨x, ⟨rfl, h1, h2⟩, rfl⟩
    exact ⟨rfl, .vbar, _, 0, rfl, x, rfl, h1, by omega, rfl⟩
  · rintro ⟨rfl, _, _, _, -, x, rfl, h, h', -⟩
    exact ⟨x, ⟨rfl, h, by omega⟩, rfl⟩

/-- A modifier. -/
def OpensModifier (t : List Str) (k : Kind) (ks : List Kind) : Prop := ks = [] ∧ ∃ i, Entry c!"." t k i

theorem ask_dotTable' (d : Option Nat) (a : Nat) (t : List Str) : Asks (runDotTable d a t) (fun _ _ => OpensModifier t) := by
  unfold runDotTable
  cases d
  all_goals
    apply Asks.conv
    · ask
    intro e v k ks _
    sema
    unfold OpensModifier
    grind

theorem opensModifier_iff {d : Option Nat} {a : Nat} {t : List Str} {k : Kind} {ks : List Kind} :
    OpensModifier t k ks ↔ ∃ rest k' b r, modifier d a t (k :: (ks ++ rest)) k' b r := by
  unfold OpensModifier modifier
  constructor
  · rintro ⟨rfl, i, h⟩
    exact ⟨[], .vbar, _, 0, rfl, .inl ⟨k, i, rfl, h, rfl⟩⟩
  · rintro ⟨rest, k', b, r, -, ⟨k0, i, h, h', -⟩ | ⟨_, _, h, -⟩⟩
    · simp only [List.cons.injEq, List.append_eq_nil_iff] at h
      obtain ⟨rfl, rfl, -⟩ := h
      exact ⟨rfl, i, h'⟩
    · simp at h

theorem ask_dotTable (d : Option Nat) (a : Nat) (t : List Str) : Asks (runDotTable d a t)
    (fun e v => Opens e v (.dotTable d a t)) :=
  (ask_dotTable' d a t).conv fun _ _ _ _ _ => opensModifier_iff

theorem ask_immFormat (s : Nat) : Asks (runDotTable (some 1) s [c!"U16", c!"S16"])
    (fun e v => Opens e v (.immFormat s)) :=
  (ask_dotTable' _ _ _).conv fun _ _ _ _ _ => opensModifier_iff

theorem ask_uimmExtended : Asks runUimmExtended (fun e v => Opens e v .uimmExtended) := by
  unfold runUimmExtended
  apply Asks.conv
  · ask
  intro e v k ks _
  sema
  single
  constructor
  · rintro ⟨x, ⟨rfl, h1, h2⟩, h⟩
    obtain ⟨n, rfl⟩ := Int.eq_ofNat_of_zero_le h1
    refine ⟨by grind, .vbar, _, 0, rfl, n, rfl, by omega, rfl⟩
  · rintro ⟨rfl, _, _, _, -, x, rfl, h, -⟩
    exact ⟨x, ⟨rfl, by omega, by omega⟩, by grind⟩

theorem ask_comma : Asks runComma (fun e v => Opens e v .comma) := by
  unfold runComma
  apply Asks.conv
  · ask
  intro e v k ks _
  sema
  single
  grind

theorem ask_imm20 : Asks runImm20 (fun e v => Opens e v .imm20) := by
  unfold runImm20
  apply Asks.conv
  · ask
  intro e v k ks _
  sema
  single
  simp only [maxBits]
  constructor
  · rintro ⟨x, ⟨rfl, h1, h2⟩, rfl⟩
    exact ⟨rfl, .vbar, _, 0, rfl, x, rfl, h1, by omega, rfl⟩
  · rintro ⟨rfl, _, _, _, -, x, rfl, h, h', -⟩
    exact ⟨x, ⟨rfl, h, by omega⟩, rfl⟩

theorem ask_bop (a : Nat) : Asks (runBop a) (fun e v => Opens e v (.bop a)) := by
  unfold runBop
  apply Asks.conv
  · ask
  intro e v k ks _
  sema
  single
  grind

theorem ask_pred (a : Nat) (n : Bool) : Asks (runPred a n) (fun e v => Opens e v (.pred a n)) := by
  unfold runPred
  apply Asks.conv
  · ask
  intro e v k ks _
  sema
  single
  constructor
  · rintro ⟨⟨p, n'⟩, rfl, h⟩
    exact ⟨by grind, .vbar, _, 0, rfl, p, n', rfl, by grind, rfl⟩
  · rintro ⟨rfl, _, _, _, -, p, n', rfl, h, -⟩
    exact ⟨(p, n'), rfl, by grind⟩

theorem ask_invertedPred (a : Nat) : Asks (runInvertedPred a) (fun e v => Opens e v (.invertedPred a)) := by
  unfold runInvertedPred
  apply Asks.conv
  · ask
  intro e v k ks _
  sema
  single
  constructor
  · rintro ⟨⟨p, n'⟩, rfl, h⟩
    exact ⟨by grind, .vbar, _, 0, rfl, p, by grind, rfl⟩
  · rintro ⟨rfl, _, _, _, -, p, rfl, h⟩
    exact ⟨(p, false), rfl, by grind⟩

theorem ask_neg (a : Nat) : Asks (runSign .minus a) (fun e v => Opens e v (.neg a)) := by
  unfold runSign
  apply Asks.conv
  · ask
  intro e v k ks _
  sema
  single
  grind

theorem ask_tilde (a : Nat) : Asks (runSign .tilde a) (fun e v => Opens e v (.tilde a)) := by
  unfold runSign
  apply Asks.conv
  · ask
  intro e v k ks _
  sema
  single
  grind

theorem ask_po (a c : Nat) : Asks (runPo a c) (fun e v => Opens e v (.po a c)) := by
  unfold runPo
  apply Asks.conv
  · ask
  intro e v k ks _
  sema
  single
  grind

theorem ask_defaultRz (a : Nat) : Asks (addBits (0xFF#64 <<< a)) (fun e v => Opens e v (.defaultRz a)) := by
  apply Asks.conv
  · ask
  intro e v k ks _
  simp [never, Opens, Accepts]

theorem ask_optText (x : Str) : Asks (runOptText x) (fun e v => Opens e v (.optText x)) := by
  unfold runOptText
  apply Asks.conv
  · ask
  intro e v k ks _
  sema
  single
  grind

theorem ask_zero : Asks runZero (fun e v => Opens e v .zero) := by
  unfold runZero
  apply Asks.conv
  · ask
  intro e v k ks _
  sema
  single
  grind

theorem ask_intFormat (u s : List Str) (a c : Nat) : Asks (runIntFormat u s a c)
    (fun e v => Opens e v (.intFormat u s a c)) := by
  unfold runIntFormat
  apply Asks.conv
  · ask
  intro e v k ks _
  sema
  single
  grind

theorem ask_plainTable (a : Nat) (t : List Str) : Asks (runPlainTable a t) (fun e v => Opens e v (.plainTable a t)) := by
  unfold runPlainTable
  apply Asks.conv
  · ask
  intro e v k ks _
  sema
  single
  grind

theorem ask_texType (a : Nat) : Asks (runTexType a) (fun e v => Opens e v (.texType a)) := by
  unfold runTexType
  apply Asks.conv
  · ask
  intro e v k ks _
  sema
  single
  grind

theorem ask_texsSwizzle : Asks runTexsSwizzle (fun e v => Opens e v .texsSwizzle) := by
  unfold runTexsSwizzle
  apply Asks.conv
  · ask
  intro e v k ks _
  sema
  single
  simp only [swizzle_cond, swizzleSingle, swizzleDouble]
  grind

theorem ask_srcFormat (a c : Nat) : Asks (runSrcFormat a c) (fun e v => Opens e v (.srcFormat a c)) := by
  unfold runSrcFormat
  apply Asks.conv
  · ask
  intro e v k ks _
  sema
  single
  constructor
  · rintro (⟨h1, i, h2, rfl⟩ | ⟨i, h, rfl⟩)
    · simp only [entry_cons, entry_nil] at h2
      simp only [noEntry_cons] at h1
      have : ∃ s x, (s, x) ∈ [(c!".U8", 0), (c!".U16", 2), (c!".U32", 3)] ∧ k = .ident s := by
        rcases h2 with ⟨rfl, -⟩ | ⟨-, _, -, h2⟩
        · exact ⟨_, 0, by simp, rfl⟩
        rcases h2 with ⟨rfl, -⟩ | ⟨-, _, -, h2⟩
        · simp at h1
        rcases h2 with ⟨rfl, -⟩ | ⟨-, _, -, h2⟩
        · exact ⟨_, 2, by simp, rfl⟩
        rcases h2 with ⟨rfl, -⟩ | ⟨-, _, -, h2⟩
        · exact ⟨_, 3, by simp, rfl⟩
        exact h2.elim
      obtain ⟨s, x, hs, rfl⟩ := this
      exact ⟨rfl, .vbar, _, 0, rfl, .inr ⟨s, x, hs, rfl, rfl⟩⟩
    · exact ⟨rfl, .vbar, _, 0, rfl, .inl ⟨k, i, rfl, h, rfl⟩⟩
  · rintro ⟨rfl, _, _, _, -, ⟨_, i, rfl, h, -⟩ | ⟨s, x, hs, rfl, -⟩⟩
    · exact .inr ⟨i, h, rfl⟩
    · simp only [List.mem_cons, Prod.mk.injEq, List.not_mem_nil, or_false] at hs
      rcases hs with ⟨rfl, -⟩ | ⟨rfl, -⟩ | ⟨rfl, -⟩
      · exact .inl ⟨by simp [NoEntry], 0, by simp [entry_cons], rfl⟩
      · exact .inl ⟨by simp [NoEntry], 2, by simp [entry_cons], rfl⟩
      · exact .inl ⟨by simp [NoEntry], 3, by simp [entry_cons], rfl⟩

/-! ### Operands of several tokens -/

theorem ask_ccTests (a : Nat) (t : List Str) (ht : t ≠ []) : Asks (runCcTests a t) (fun e v => Opens e v (.ccTests a t)) := by
  unfold runCcTests
  apply Asks.conv
  · ask
  intro e v k ks _
  sema
  constructor
  · rintro ⟨rfl, rfl | ⟨k', ks', rfl, x, -, i, h, rfl⟩⟩
    · obtain ⟨x, t, rfl⟩ := List.exists_cons_of_ne_nil ht
      exact ⟨[.ident (c!"." ++ x)], .vbar, _, 0, rfl, .inl ⟨_, 0, rfl, ⟨x, rfl, rfl, by simp⟩, rfl⟩⟩
    · exact ⟨[], .vbar, _, 0, rfl, .inl ⟨_, i, rfl, h, rfl⟩⟩
  · rintro ⟨rest, k', b, r, -, ⟨k0, i, h, h', -⟩ | ⟨h, -⟩⟩
    · simp only [List.cons.injEq] at h
      obtain ⟨rfl, h⟩ := h
      refine ⟨rfl, ?_⟩
      rcases ks with _ | ⟨k1, ks⟩
      · exact .inl rfl
      · simp only [List.cons_append, List.cons.injEq, List.append_eq_nil_iff] at h
        obtain ⟨rfl, rfl, rfl⟩ := h
        obtain ⟨name, hn, -⟩ := id h'
        exact .inr ⟨_, _, rfl, _, hn, i, h', rfl⟩
    · simp at h

theorem ask_xmadSigns : Asks runXmadSigns (fun e v => Opens e v .xmadSigns) := by
  unfold runXmadSigns
  apply Asks.conv
  · ask
  intro e v k ks _
  sema
  constructor
  · intro h
    have hk : ∃ x : Bool, k = .ident (if x then c!".S16" else c!".U16") := by
      by_cases h1 : k = .ident c!".S16"
      · exact ⟨true, h1⟩
      · exact ⟨false, by simp [Kind.equal] at h; grind⟩
    have hks : ks = [] ∨ ∃ y : Bool, ks = [.ident (if y then c!".S16" else c!".U16")] := by
      rcases h.2 with h | ⟨k', ks', rfl, h⟩
      · exact .inl h
      · right
        by_cases h1 : k' = .ident c!".S16"
        · exact ⟨true, by grind⟩
        · exact ⟨false, by grind⟩
    obtain ⟨x, rfl⟩ := hk
    rcases hks with rfl | ⟨y, rfl⟩
    · exact ⟨[.ident (if true then c!".S16" else c!".U16")], .vbar, _, 0, rfl, .inl ⟨x, true, rfl, rfl⟩⟩
    · exact ⟨[], .vbar, _, 0, rfl, .inl ⟨x, y, rfl, rfl⟩⟩
  · rintro ⟨rest, k', b, r, -, ⟨x, y, h, -⟩ | ⟨h, -⟩⟩
    · simp only [List.cons.injEq] at h
      obtain ⟨rfl, h⟩ := h
      refine ⟨by cases x <;> simp [Kind.equal], ?_⟩
      rcases ks with _ | ⟨k1, ks⟩
      · exact .inl rfl
      · simp only [List.cons_append, List.cons.injEq, List.append_eq_nil_iff] at h
        obtain ⟨rfl, rfl, rfl⟩ := h
        exact .inr ⟨_, _, rfl, by cases x <;> cases y <;> simp⟩
    · simp at h

/-- Beginnings are prefixes. -/
theorem opens_iff {e : Env} {v : BitVec 64} {o : Operand} {k : Kind} {ks : List Kind} :
    Opens e v o k ks ↔ ∃ l, k :: ks <+: l ∧ ∃ k' b r, Accepts e v o l k' b r := by
  constructor
  · rintro ⟨rest, k', b, r, h⟩
    exact ⟨_, ⟨rest, rfl⟩, k', b, r, h⟩
  · rintro ⟨_, ⟨rest, rfl⟩, k', b, r, h⟩
    exact ⟨rest, k', b, r, h⟩

/-- A register, perhaps marked for reuse. -/
def OpensReg (a : Nat) (k : Kind) (ks : List Kind) : Prop :=
  (∃ n, k = .reg n) ∧ (ks = [] ∨ (ks = [.ident c!".reuse"] ∧ reuseFlag a ≠ none))

theorem ask_tryReuse (a : Nat) : Asks (tryReuse a) (fun _ _ k ks => k = .ident c!".reuse" ∧ ks = [] ∧ reuseFlag a ≠ none) := by
  unfold tryReuse
  apply Asks.conv
  · ask
  intro e v k ks _
  sema
  by_cases h8 : a = 8
  · subst h8; simp [reuseFlag]
  · by_cases h20 : a = 20
    · subst h20; simp [reuseFlag]
    · by_cases h39 : a = 39
      · subst h39; simp [reuseFlag]
      · have : reuseFlag a = none := by unfold reuseFlag; split <;> simp_all
        simp [h8, h20, h39, this]

theorem ask_gpr' (a : Nat) : Asks (assembleGpr a) (fun _ _ => OpensReg a) := by
  unfold assembleGpr
  have h := ask_tryReuse a
  apply Asks.conv
  · ask
  intro e v k ks _
  sema
  unfold OpensReg
  grind

theorem opensReg_iff {a : Nat} {k : Kind} {ks : List Kind} {k' : Kind} (hk : k' ≠ .ident c!".reuse") :
    OpensReg a k ks ↔ ∃ rest b r, register a (k :: (ks ++ rest)) k' b r := by
  unfold OpensReg register reuse
  constructor
  · rintro ⟨⟨n, rfl⟩, rfl | ⟨rfl, h⟩⟩
    · exact ⟨[], _, 0, n, [], rfl, rfl, .inr ⟨rfl, hk, rfl⟩⟩
    · obtain ⟨r, hr⟩ := Option.ne_none_iff_exists'.1 h
      exact ⟨[], _, r, n, _, rfl, rfl, .inl ⟨rfl, hr⟩⟩
  · rintro ⟨rest, b, r, n, l, h, -, ⟨rfl, hr⟩ | ⟨rfl, -⟩⟩
    · simp only [List.cons.injEq] at h
      obtain ⟨rfl, h⟩ := h
      rcases ks with _ | ⟨k1, ks⟩
      · exact ⟨⟨n, rfl⟩, .inl rfl⟩
      · simp only [List.cons_append, List.cons.injEq, List.append_eq_nil_iff] at h
        obtain ⟨rfl, rfl, rfl⟩ := h
        exact ⟨⟨n, rfl⟩, .inr ⟨rfl, by simp [hr]⟩⟩
    · simp only [List.cons.injEq, List.append_eq_nil_iff] at h
      obtain ⟨rfl, rfl, -⟩ := h
      exact ⟨⟨n, rfl⟩, .inl rfl⟩

theorem opensReg_opens {e : Env} {v : BitVec 64} {a : Nat} {k : Kind} {ks : List Kind} :
    OpensReg a k ks ↔ Opens e v (.gpr a) k ks := by
  constructor
  · intro h
    obtain ⟨rest, b, r, h⟩ := (opensReg_iff (k' := .vbar) (by simp)).1 h
    exact ⟨rest, .vbar, b, r, h⟩
  · rintro ⟨rest, k', b, r, n, l, h, -, h'⟩
    refine (opensReg_iff (k' := .vbar) (by simp)).2 ⟨rest, _, r, n, l, h, rfl, ?_⟩
    rcases h' with h' | ⟨rfl, -, rfl⟩
    · exact .inl h'
    · exact .inr ⟨rfl, by simp, rfl⟩

theorem ask_gpr (a : Nat) : Asks (assembleGpr a) (fun e v => Opens e v (.gpr a)) :=
  (ask_gpr' a).conv fun _ _ _ _ _ => opensReg_opens

theorem ask_cbuf : Asks runCbuf (fun e v => Opens e v .cbuf) := by
  unfold runCbuf
  apply Asks.conv
  · ask
  intro e v k ks _
  sema
  rw [opens_iff]
  simp only [Accepts, maxBits]
  constructor
  · intro h
    have : ∃ (x : Nat) (y : Int), k :: ks <+: [.ident c!"c", .lbracket, .imm x, .rbracket, .lbracket, .imm y, .rbracket] ∧
      x < 32 ∧ -(2 ^ 15) ≤ y ∧ y < 2 ^ 15 ∧ y % 4 = 0 := by
      obtain ⟨rfl, h⟩ := h
      simp only [List.cons_prefix_cons, true_and]
      rcases h with rfl | ⟨_, _, rfl, rfl, h⟩
      · exact ⟨0, 0, by simp⟩
      simp only [List.cons_prefix_cons, true_and]
      rcases h with rfl | ⟨_, _, rfl, x, ⟨rfl, h1, h2⟩, h⟩
      · exact ⟨0, 0, by simp⟩
      obtain ⟨x, rfl⟩ := Int.eq_ofNat_of_zero_le h1
      refine ⟨x, ?_⟩
      simp only [List.cons_prefix_cons, true_and]
      have h2 : x < 32 := by omega
      rcases h with rfl | ⟨_, _, rfl, rfl, h⟩
      · exact ⟨0, by simp [h2]⟩
      simp only [List.cons_prefix_cons, true_and]
      rcases h with rfl | ⟨_, _, rfl, rfl, h⟩
      · exact ⟨0, by simp [h2]⟩
      simp only [List.cons_prefix_cons, true_and]
      rcases h with rfl | ⟨_, _, rfl, y, ⟨rfl, h3, h4⟩, h5, h⟩
      · exact ⟨0, by simp [h2]⟩
      refine ⟨y, ?_, h2, h3, by omega, Int.emod_eq_zero_of_dvd (Int.dvd_of_tmod_eq_zero h5)⟩
      simp only [List.cons_prefix_cons, true_and]
      rcases h with rfl | ⟨_, _, rfl, rfl, rfl⟩ <;> simp
    obtain ⟨x, y, h1, h2⟩ := this
    exact ⟨_, h1, .vbar, _, 0, rfl, x, y, rfl, h2.1, h2.2.1, h2.2.2.1, h2.2.2.2, rfl⟩
  · rintro ⟨l, hl, k', b, r, -, x, y, rfl, h1, h2, h3, h4, -⟩
    rw [List.cons_prefix_cons] at hl
    obtain ⟨rfl, hl⟩ := hl
    simp only [List.prefix_cons_iff, List.prefix_nil] at hl
    refine ⟨rfl, ?_⟩
    rcases hl with rfl | ⟨_, rfl, hl⟩
    · exact .inl rfl
    refine .inr ⟨_, _, rfl, rfl, ?_⟩
    rcases hl with rfl | ⟨_, rfl, hl⟩
    · exact .inl rfl
    refine .inr ⟨_, _, rfl, x, ⟨rfl, by omega, by omega⟩, ?_⟩
    rcases hl with rfl | ⟨_, rfl, hl⟩
    · exact .inl rfl
    refine .inr ⟨_, _, rfl, rfl, ?_⟩
    rcases hl with rfl | ⟨_, rfl, hl⟩
    · exact .inl rfl
    refine .inr ⟨_, _, rfl, rfl, ?_⟩
    rcases hl with rfl | ⟨_, rfl, hl⟩
    · exact .inl rfl
    refine .inr ⟨_, _, rfl, y, ⟨rfl, by omega, by omega⟩, Int.tmod_eq_zero_of_dvd (Int.dvd_of_emod_eq_zero h4), ?_⟩
    rcases hl with rfl | ⟨_, rfl, hl⟩
    · exact .inl rfl
    exact .inr ⟨_, _, rfl, rfl, hl⟩

theorem ask_s2r (t : List Str) : Asks (runS2r t) (fun e v => Opens e v (.s2r t)) := by
  unfold runS2r
  apply Asks.conv
  · ask
  intro e v k ks _
  sema
  have hl : ∀ s, (s = c!".X" ∨ s = c!".Y" ∨ s = c!".Z") → (∃ x, (s, x) ∈ [(c!".X", 33), (c!".Y", 34), (c!".Z", 35)]) ∧
    ∃ x, (s, x) ∈ [(c!".X", 37), (c!".Y", 38), (c!".Z", 39)] := by
    rintro s (rfl | rfl | rfl) <;> simp
  have hl' : ∀ s, ((∃ x, (s, x) ∈ [(c!".X", 33), (c!".Y", 34), (c!".Z", 35)]) ∨
    ∃ x, (s, x) ∈ [(c!".X", 37), (c!".Y", 38), (c!".Z", 39)]) → (s = c!".X" ∨ s = c!".Y" ∨ s = c!".Z")  := by
    rintro s (⟨x, h⟩ | ⟨x, h⟩) <;> simp at h <;> grind
  constructor
  · intro h
    have : (∃ s, (s = c!".X" ∨ s = c!".Y" ∨ s = c!".Z") ∧
        (k :: ks <+: [.ident c!"SR_TID", .ident s] ∨ k :: ks <+: [.ident c!"SR_CTAID", .ident s])) ∨
        (∃ i, ks = [] ∧ k ≠ .ident c!"SR_TID" ∧ k ≠ .ident c!"SR_CTAID" ∧ Entry [] t k i) := by
      rcases h with ⟨rfl, h⟩ | ⟨h0, ⟨rfl, h⟩ | ⟨h1, i, h⟩⟩
      · left
        rcases h with rfl | ⟨_, _, rfl, h⟩
        · exact ⟨_, .inl rfl, .inl (by simp)⟩
        · rcases h with ⟨rfl, rfl⟩ | ⟨-, ⟨rfl, rfl⟩ | ⟨-, rfl, rfl⟩⟩
          · exact ⟨c!".X", by simp, .inl (by simp)⟩
          · exact ⟨c!".Y", by simp, .inl (by simp)⟩
          · exact ⟨c!".Z", by simp, .inl (by simp)⟩
      · left
        rcases h with rfl | ⟨_, _, rfl, h⟩
        · exact ⟨_, .inl rfl, .inr (by simp)⟩
        · rcases h with ⟨rfl, rfl⟩ | ⟨-, ⟨rfl, rfl⟩ | ⟨-, rfl, rfl⟩⟩
          · exact ⟨c!".X", by simp, .inr (by simp)⟩
          · exact ⟨c!".Y", by simp, .inr (by simp)⟩
          · exact ⟨c!".Z", by simp, .inr (by simp)⟩
      · exact .inr ⟨i, h.2, h0, h1, h.1⟩
    rw [opens_iff]
    simp only [Accepts]
    rcases this with ⟨s, hs, h | h⟩ | ⟨i, rfl, h0, h1, h⟩
    · obtain ⟨⟨x, hx⟩, -⟩ := hl s hs
      exact ⟨_, h, .vbar, _, 0, rfl, .inl ⟨s, x, hx, rfl, rfl⟩⟩
    · obtain ⟨-, x, hx⟩ := hl s hs
      exact ⟨_, h, .vbar, _, 0, rfl, .inr (.inr (.inl ⟨s, x, hx, rfl, rfl⟩))⟩
    · exact ⟨_, List.prefix_rfl, .vbar, _, 0, rfl, .inr (.inr (.inr ⟨_, i, rfl, h0, h1, h, rfl⟩))⟩
  · rw [opens_iff]
    simp only [Accepts]
    rintro ⟨l, hp, k', b, r, -, ⟨s, x, hx, rfl, -⟩ | ⟨rfl, -⟩ | ⟨s, x, hx, rfl, -⟩ | ⟨k0, i, rfl, h0, h1, h, -⟩⟩
    · have := hl' s (.inl ⟨x, hx⟩)
      simp only [List.prefix_cons_iff, List.prefix_nil] at hp
      grind
    · simp only [List.cons_prefix_cons, List.prefix_nil] at hp
      exact .inl ⟨hp.1, .inl hp.2⟩
    · have := hl' s (.inr ⟨x, hx⟩)
      simp only [List.prefix_cons_iff, List.prefix_nil] at hp
      grind
    · simp only [List.cons_prefix_cons, List.prefix_nil] at hp
      obtain ⟨rfl, rfl⟩ := hp
      exact .inr ⟨h0, .inr ⟨h1, i, h, rfl⟩⟩

theorem ask_ldgSize : Asks runLdgSize (fun e v => Opens e v .ldgSize) := by
  unfold runLdgSize
  apply Asks.conv
  · ask
  intro e v k ks _
  sema
  rw [opens_iff]
  simp only [Accepts]
  simp only [ex_entry_cons, ex_entry_nil]
  constructor
  · intro h
    have : (k :: ks <+: [.ident c!".U", .ident c!".128"]) ∨ (ks = [] ∧
       ∃ i, Entry c!"." [c!"U8", c!"S8", c!"U16", c!"S16", c!"32", c!"64", c!"128"] k i ∧ True) := by
      simp only [ex_entry_cons, ex_entry_nil, List.prefix_cons_iff, List.prefix_nil]
      simp at h ⊢
      grind (splits := 40)
    rcases this with h | ⟨rfl, i, h, -⟩
    · exact ⟨_, h, .vbar, _, 0, rfl, .inr (.inl ⟨rfl, rfl⟩)⟩
    · exact ⟨_, List.prefix_rfl, .vbar, _, 0, rfl, .inl ⟨k, i, rfl, h, rfl⟩⟩
  · rintro ⟨l, hp, k', b, r, -, ⟨k0, i, rfl, h, -⟩ | ⟨rfl, -⟩ | ⟨rfl, -⟩⟩
    · simp only [List.cons_prefix_cons, List.prefix_nil] at hp
      obtain ⟨rfl, rfl⟩ := hp
      have h : ∃ i, Entry c!"." [c!"U8", c!"S8", c!"U16", c!"S16", c!"32", c!"64", c!"128"] k i ∧ True := ⟨i, h, trivial⟩
      simp only [ex_entry_cons, ex_entry_nil] at h
      simp at h ⊢
      grind (splits := 40)
    · simp only [List.prefix_cons_iff, List.prefix_nil] at hp
      simp at hp ⊢
      grind (splits := 40)
    · simp at hp

theorem ask_atomicSize (a : Nat) : Asks (runAtomicSize a) (fun e v => Opens e v (.atomicSize a)) := by
  unfold runAtomicSize
  apply Asks.conv
  · ask
  intro e v k ks _
  sema
  rw [opens_iff]
  simp only [Accepts]
  simp only [ex_entry_cons, ex_entry_nil]
  constructor
  · intro h
    have : k :: ks <+: [.ident c!".F32", .ident c!".FTZ", .ident c!".RN"] ∨ k :: ks <+: [.ident c!".F16x2", .ident c!".RN"] ∨
        ks = [] ∧ ∃ s x, (s, x) ∈ [(c!".U32", 0), (c!".S32", 1), (c!".U64", 2), (c!".S64", 5)] ∧ k = .ident s := by
      simp only [List.prefix_cons_iff, List.prefix_nil]
      simp at h ⊢
      grind (splits := 40)
    clear h
    rcases this with h | h | ⟨rfl, s, x, h, rfl⟩
    · exact ⟨_, h, .vbar, _, 0, rfl, .inr (.inl ⟨rfl, rfl⟩)⟩
    · exact ⟨_, h, .vbar, _, 0, rfl, .inr (.inr (.inl ⟨rfl, rfl⟩))⟩
    · exact ⟨_, List.prefix_rfl, .vbar, _, 0, rfl, .inl ⟨s, x, h, rfl, rfl⟩⟩
  · rintro ⟨l, hp, k', b, r, -, ⟨s, x, hs, rfl, -⟩ | ⟨rfl, -⟩ | ⟨rfl, -⟩ | ⟨rfl, -⟩⟩
    · simp only [List.cons_prefix_cons, List.prefix_nil] at hp
      obtain ⟨rfl, rfl⟩ := hp
      simp at hs ⊢
      grind (splits := 40)
    · simp only [List.prefix_cons_iff, List.prefix_nil] at hp
      simp at hp ⊢
      grind (splits := 40)
    · simp only [List.prefix_cons_iff, List.prefix_nil] at hp
      simp at hp ⊢
      grind (splits := 40)
    · simp at hp

theorem ask_texsMode (a : Nat) : Asks (runTexsMode a) (fun e v => Opens e v (.texsMode a)) := by
  unfold runTexsMode
  apply Asks.conv
  · ask
  intro e v k ks _
  sema
  rw [opens_iff]
  simp only [Accepts, texsMode_flat]
  constructor
  · intro h
    have : k :: ks <+: [.ident c!".LZ", .ident c!".DC"] ∨ k :: ks <+: [.ident c!".LL", .ident c!".DC"] ∨
        k :: ks <+: [.ident c!".DC"] := by
      simp only [List.prefix_cons_iff, List.prefix_nil]
      simp at h ⊢
      grind (splits := 40)
    rcases this with h | h | h
    · exact ⟨_, h, .vbar, _, 0, rfl, .inl ⟨rfl, rfl⟩⟩
    · exact ⟨_, h, .vbar, _, 0, rfl, .inr (.inl ⟨rfl, rfl⟩)⟩
    · exact ⟨_, h, .vbar, _, 0, rfl, .inr (.inr (.inl ⟨rfl, rfl⟩))⟩
  · rintro ⟨l, hp, k', b, r, -, ⟨rfl, -⟩ | ⟨rfl, -⟩ | ⟨rfl, -⟩ | ⟨rfl, -⟩ | ⟨rfl, -⟩ | ⟨rfl, -⟩⟩
    all_goals
      simp only [List.prefix_cons_iff, List.prefix_nil] at hp
      simp at hp ⊢
      try grind (splits := 40)

/-! ### Computations that begin by looking at the token -/

theorem Asks.byKind {f : Kind → M α} {W : Kind → Ask} (h : ∀ k, Asks (f k) (W k)) :
    Asks (Nxas.getKind >>= f) (fun e v k => W k e v k) := by
  intro s hs
  have : (Nxas.getKind >>= f) false s = f s.tok.kind false s := rfl
  rw [this]
  exact h _ s hs

theorem ask_labelTarget (x : Int) : Asks (runLabelTarget x) (fun e _ _ ks => ks = [] ∧
    -(2 ^ 23) ≤ x - e.pc - 8 ∧ x - e.pc - 8 < 2 ^ 23) := by
  unfold runLabelTarget
  apply Asks.conv
  · apply Asks.getCtx (P := fun e => altA (x - e.pc - 8 < -(2 ^ 63)) never
      (altA (x - e.pc - 8 > 2 ^ 23 - 1 ∨ x - e.pc - 8 < -(2 ^ 23)) never
        (andThen (add ((u64 (x - e.pc - 8) &&& 0x7FFFFF#64) <<< 20)) never fun _ =>
          andThen (add ((if x - e.pc - 8 < 0 then 1#64 else 0#64) <<< 43)) never fun _ => atEnd)))
    intro c
    exact Asks.ite (Asks.ubM (by simp)) (Asks.ite (Asks.failTok _) (Asks.bind (Den.addBits _) (Asks.addBits _) fun _ =>
      Asks.bind (Den.addBits _) (Asks.addBits _) fun _ => Asks.advance))
  intro e v k ks _
  sema
  generalize x - e.pc - 8 = y
  constructor
  · rintro ⟨h1, h2, rfl⟩
    exact ⟨rfl, by omega, by omega⟩
  · rintro ⟨rfl, h1, h2⟩
    exact ⟨by omega, by omega, rfl⟩

theorem ask_label : Asks runLabel (fun e v => Opens e v .label) := by
  unfold runLabel
  apply Asks.conv
  · apply Asks.byKind (W := fun t e _ _ ks => ks = [] ∧ ∃ x : Int,
      ((∃ s a, t = .ident s ∧ e.label s = some a ∧ x = a) ∨ t = .imm x) ∧ -(2 ^ 23) ≤ x - e.pc - 8 ∧ x - e.pc - 8 < 2 ^ 23)
    intro t
    cases t
    case ident x =>
      apply Asks.conv
      · apply Asks.getCtx (P := fun e0 e _ _ ks => ∃ a : Nat, e0.label x = some a ∧ ks = [] ∧
          -(2 ^ 23) ≤ (a : Int) - e.pc - 8 ∧ (a : Int) - e.pc - 8 < 2 ^ 23)
        intro c
        change Asks (match c.env.label x with | none => _ | some a => _) _
        cases hl : c.env.label x with
        | none =>
          apply Asks.conv (Asks.failTok _)
          simp [never]
        | some a =>
          apply Asks.conv (ask_labelTarget a)
          simp
      · intro e v k ks _
        constructor
        · rintro ⟨a, h1, rfl, h2⟩
          exact ⟨rfl, a, .inl ⟨x, a, rfl, h1, rfl⟩, h2⟩
        · rintro ⟨rfl, y, ⟨s, a, hs, h1, rfl⟩ | h, h2⟩
          · cases hs
            exact ⟨a, h1, rfl, h2⟩
          · simp at h
    case imm x =>
      apply Asks.conv (ask_labelTarget x)
      intro e v k ks _
      simp
    all_goals
      apply Asks.conv (Asks.failTok _)
      simp [never]
  intro e v k ks _
  single
  constructor
  · rintro ⟨rfl, x, h, h1, h2⟩
    exact ⟨rfl, .vbar, _, 0, rfl, x, h, h1, h2, rfl⟩
  · rintro ⟨rfl, _, _, _, -, x, h, h1, h2, -⟩
    exact ⟨rfl, x, h, h1, h2⟩

theorem ask_floatKeyword (q i : BitVec n) : Asks (floatKeyword q i) never := by
  unfold floatKeyword
  apply Asks.conv
  · ask
  intro e v k ks _
  sema

/-- The value of a floating point operand asks for a token after a sign. -/
def afterSign : Ask := fun _ _ k ks => (k = .plus ∨ k = .minus) ∧ ks = []

theorem ask_float {val : M (BitVec n)} {f : BitVec n → M Unit} {q i : BitVec n} {oF : BitVec 32 → BitVec n}
    {oI : Int → BitVec n} {bF : BitVec 32 → BitVec 64} {bI : Int → BitVec 64} {N : BitVec n → BitVec n} {bM : BitVec 64}
    (hd : Den val (byKind (floatSem q i oF oI bF bI N bM))) (hv : Asks val afterSign) (hf : ∀ x, Asks (f x) atEnd) :
    Asks (val >>= f) (fun _ _ k ks => ∃ l neg x, k :: ks <+: l ∧ FloatText n oF oI q i l neg x) := by
  apply Asks.conv
  · exact Asks.bind hd hv hf
  intro e v k ks _
  constructor
  · rintro (⟨hk, rfl⟩ | ⟨x, ks1, k2, ks2, b, r, he, hP, rfl⟩)
    · rcases hk with rfl | rfl
      · exact ⟨_, _, _, ⟨[_], rfl⟩, .plus (.inl ⟨rfl, rfl⟩)⟩
      · exact ⟨_, _, _, ⟨[_], rfl⟩, .minus (.inl ⟨rfl, rfl⟩)⟩
    · obtain ⟨-, neg, y, hF, -⟩ := (floatSem_flat (W := fun _ => 0) (u := ()) (v := v) (e := e) (k := .vbar)).1
        ⟨x, ks1, [k2], b, 0, r, 0, by simpa using hP, ⟨rfl, ⟨_, rfl⟩, rfl⟩, rfl, rfl, rfl⟩
      exact ⟨_, neg, y, he ▸ List.prefix_rfl, hF⟩
  · rintro ⟨l, neg, x, hp, hF⟩
    have hfull : k :: ks = l → _ := fun hl => (floatSem_flat (W := fun _ => 0) (u := ()) (e := e) (v := v) (k := .vbar) (bF := bF)
      (bI := bI) (N := N) (bM := bM)).2 ⟨rfl, neg, x, hl ▸ hF, rfl⟩
    have hfull' : k :: ks = l → andThen (byKind (floatSem q i oF oI bF bI N bM)) afterSign (fun _ => atEnd) e v k ks := by
      intro hl
      obtain ⟨y, ks1, ks2, b1, b2, r1, r2, h1, ⟨rfl, ⟨k0, rfl⟩, rfl⟩, h2, -, -⟩ := hfull hl
      exact .inr ⟨y, ks1, k0, [], b1, r1, h2, by simpa using h1, rfl⟩
    cases hF with
    | float => exact hfull' (by simp at hp; simp [hp])
    | int => exact hfull' (by simp at hp; simp [hp])
    | word => exact hfull' (by simp at hp; simp [hp])
    | plus h =>
      simp only [List.cons_prefix_cons, List.prefix_nil, List.prefix_cons_iff (l₂ := [])] at hp
      rcases hp with ⟨rfl, rfl | ⟨_, rfl, rfl⟩⟩
      · exact .inl ⟨.inl rfl, rfl⟩
      · exact hfull' rfl
    | minus h =>
      simp only [List.cons_prefix_cons, List.prefix_nil, List.prefix_cons_iff (l₂ := [])] at hp
      rcases hp with ⟨rfl, rfl | ⟨_, rfl, rfl⟩⟩
      · exact .inl ⟨.inr rfl, rfl⟩
      · exact hfull' rfl

theorem ask_floatValue : Asks floatValue afterSign := by
  unfold floatValue
  apply Asks.conv
  · apply Asks.byKind (W := fun t _ _ _ ks => (t = .plus ∨ t = .minus) ∧ ks = [])
    intro t
    have hk := ask_floatKeyword f32QNaN f32Inf
    have hd := den_floatKeyword f32QNaN f32Inf
    cases t <;> dsimp only
    all_goals
      apply Asks.conv
      · ask
      intro e v k ks _
      sema
      try simp
  intro e v k ks _
  exact Iff.rfl

theorem ask_doubleValue : Asks doubleValue afterSign := by
  unfold doubleValue
  apply Asks.conv
  · apply Asks.byKind (W := fun t _ _ _ ks => (t = .plus ∨ t = .minus) ∧ ks = [])
    intro t
    have hk := ask_floatKeyword f64QNaN f64Inf
    have hd := den_floatKeyword f64QNaN f64Inf
    cases t <;> dsimp only
    all_goals
      apply Asks.conv
      · ask
      intro e v k ks _
      sema
      try simp
  intro e v k ks _
  exact Iff.rfl

theorem ask_addNegBit (negBit : Option Nat) : Asks (addNegBit negBit) never := by
  unfold addNegBit
  cases negBit
  · exact Asks.pure _
  · exact Asks.addBits _

theorem ask_halfValue (negBit : Option Nat) : Asks (halfValue negBit) afterSign := by
  unfold halfValue
  apply Asks.conv
  · apply Asks.byKind (W := fun t _ _ _ ks => (t = .plus ∨ t = .minus) ∧ ks = [])
    intro t
    have hk := ask_floatKeyword 0x7FFF#16 0x7C00#16
    have hd := den_floatKeyword 0x7FFF#16 0x7C00#16
    have hn := ask_addNegBit negBit
    have hn' := den_addNegBit negBit
    cases t <;> dsimp only
    all_goals
      apply Asks.conv
      · ask
      intro e v k ks _
      sema
      try simp
  intro e v k ks _
  exact Iff.rfl

theorem ask_fimm (wide : Bool) : Asks (runFimm wide) (fun e v => Opens e v (.fimm wide)) := by
  unfold runFimm
  apply Asks.conv
  · apply ask_float den_floatValue ask_floatValue
    intro x
    apply Asks.conv
    · ask
    intro e v k ks _
    sema
    by_cases h : wide = true <;> by_cases h' : x >>> 31 = 0#32 <;> simp [h, h']
  intro e v k ks _
  rw [opens_iff]
  constructor
  · rintro ⟨l, neg, x, hp, hF⟩
    exact ⟨l, hp, .vbar, _, 0, rfl, neg, x, hF, rfl⟩
  · rintro ⟨l, hp, k', b, r, -, neg, x, hF, -⟩
    exact ⟨l, neg, x, hp, hF⟩

theorem ask_dimm20 : Asks runDimm20 (fun e v => Opens e v .dimm20) := by
  unfold runDimm20
  apply Asks.conv
  · apply ask_float den_doubleValue ask_doubleValue
    intro x
    apply Asks.conv
    · ask
    intro e v k ks _
    sema
  intro e v k ks _
  rw [opens_iff]
  constructor
  · rintro ⟨l, neg, x, hp, hF⟩
    exact ⟨l, hp, .vbar, _, 0, rfl, neg, x, hF, rfl⟩
  · rintro ⟨l, hp, k', b, r, -, neg, x, hF, -⟩
    exact ⟨l, neg, x, hp, hF⟩

theorem ask_himm (wide : Bool) (offset : Nat) (negBit : Option Nat) : Asks (runHimm wide offset negBit)
    (fun e v => Opens e v (.himm wide offset negBit)) := by
  unfold runHimm
  apply Asks.conv
  · apply ask_float (den_halfValue _) (ask_halfValue _)
    intro x
    apply Asks.conv
    · ask
    intro e v k ks _
    sema
    by_cases h : wide = true <;> simp [h]
  intro e v k ks _
  rw [opens_iff]
  constructor
  · rintro ⟨l, neg, x, hp, hF⟩
    exact ⟨l, hp, .vbar, _, 0, rfl, neg, x, hF, rfl⟩
  · rintro ⟨l, hp, k', b, r, -, neg, x, hF, -⟩
    exact ⟨l, neg, x, hp, hF⟩

theorem ask_f2fRounding : Asks runF2fRounding (fun e v => Opens e v .f2fRounding) := by
  unfold runF2fRounding
  apply Asks.conv
  · apply Asks.bind Den.getValue Asks.getValue
    intro v
    refine Asks.ite (P := fun _ _ k ks => ks = [] ∧ ∃ s ∈ [c!".ROUND", c!".FLOOR", c!".CEIL", c!".TRUNC", c!".PASS"], k = .ident s)
      ?_ (ask_dotTable' _ _ _)
    apply Asks.byKind (W := fun t _ _ _ ks => ks = [] ∧ ∃ s ∈ [c!".ROUND", c!".FLOOR", c!".CEIL", c!".TRUNC", c!".PASS"], t = .ident s)
    intro t
    dsimp only
    have hbr : ∀ x : BitVec 64, Asks (do advance; addBits x) (fun _ _ _ ks => ks = []) := by
      intro x
      apply Asks.conv
      · ask
      intro e v k ks _
      sema
    by_cases h1 : t.equal c!".ROUND" = true
    · simp only [h1, if_true]
      apply (hbr _).conv; intros; simp [equal_iff.1 h1]
    by_cases h2 : t.equal c!".FLOOR" = true
    · simp only [h1, h2, Bool.false_eq_true, if_false, if_true]
      apply (hbr _).conv; intros; simp [equal_iff.1 h2]
    by_cases h3 : t.equal c!".CEIL" = true
    · simp only [h1, h2, h3, Bool.false_eq_true, if_false, if_true]
      apply (hbr _).conv; intros; simp [equal_iff.1 h3]
    by_cases h4 : t.equal c!".TRUNC" = true
    · simp only [h1, h2, h3, h4, Bool.false_eq_true, if_false, if_true]
      apply (hbr _).conv; intros; simp [equal_iff.1 h4]
    by_cases h5 : t.equal c!".PASS" = true
    · simp only [h1, h2, h3, h4, h5, Bool.false_eq_true, if_false, if_true]
      apply (hbr _).conv; intros; simp [equal_iff.1 h5]
    · simp only [h1, h2, h3, h4, h5, Bool.false_eq_true, if_false]
      apply (Asks.addBits _).conv
      intro e v k ks _
      simp only [equal_iff] at h1 h2 h3 h4 h5
      simp [never, h1, h2, h3, h4, h5]
  intro e v k ks _
  have hv : ((v >>> 8) &&& 3#64 = (v >>> 10) &&& 3#64) ↔ bitsAt v 8 2 = bitsAt v 10 2 := by
    rw [← bitsAt_mask v 8 2 (by omega), ← bitsAt_mask v 10 2 (by omega), BitVec.toNat_inj]
  sema
  unfold Opens
  simp only [Accepts, hv]
  by_cases h : bitsAt v 8 2 = bitsAt v 10 2
  · simp only [h, if_true, true_and, not_true, false_and, or_false]
    constructor
    · rintro ⟨rfl, s, hs, rfl⟩
      have : ∃ x, (s, x) ∈ [(c!".ROUND", 8), (c!".FLOOR", 9), (c!".CEIL", 10), (c!".TRUNC", 11), (c!".PASS", 3)] := by
        simp only [List.mem_cons, List.not_mem_nil, or_false] at hs
        rcases hs with rfl | rfl | rfl | rfl | rfl <;> simp
      obtain ⟨x, hx⟩ := this
      exact ⟨[], .vbar, _, 0, rfl, .inl ⟨_, s, x, rfl, hx, rfl, rfl⟩⟩
    · rintro ⟨rest, k', b, r, -, ⟨k0, s, x, he, hs, rfl, -⟩ | ⟨he, -⟩⟩
      · simp only [List.cons.injEq, List.append_eq_nil_iff] at he
        obtain ⟨rfl, rfl, -⟩ := he
        refine ⟨rfl, s, ?_, rfl⟩
        simp only [List.mem_cons, List.not_mem_nil, or_false, Prod.mk.injEq] at hs ⊢
        grind
      · simp at he
  · simp only [h, if_false, not_false_eq_true, true_and, false_and, false_or]
    exact opensModifier_iff

theorem ask_selector (a ta sh : Nat) (ss bs : List Str) (h : sh < 8) : Asks (runSelector a ta sh ss bs)
    (fun e v => Opens e v (.selector a ta sh ss bs)) := by
  unfold runSelector
  apply Asks.conv
  · exact Asks.bind Den.getValue Asks.getValue fun _ => ask_dotTable' _ _ _
  intro e v k ks _
  sema
  have : ((v >>> ta) &&& 7#64 = BitVec.ofNat 64 sh) ↔ bitsAt v ta 3 = sh := by
    rw [← bitsAt_mask v ta 3 (by omega), ← BitVec.toNat_inj]
    simp [Nat.mod_eq_of_lt (show sh < 2 ^ 64 by omega)]
  simp only [this]
  exact opensModifier_iff

theorem ask_addAll (l : List (BitVec 64)) : Asks (addAll l) never := by
  induction l with
  | nil => exact Asks.pure _
  | cons x l ih =>
    unfold addAll
    apply Asks.conv
    · ask
    intro e v k ks _
    sema

theorem ask_expect (w : Str) (pre post : List (BitVec 64)) : Asks (runExpect w pre post)
    (fun e v => Opens e v (.expect w pre post)) := by
  unfold runExpect
  apply Asks.conv
  · apply Asks.bind Den.getKind Asks.getKind
    intro t
    apply Asks.ite (Asks.failTok _)
    exact Asks.bind (den_addAll _) (ask_addAll _) fun _ => Asks.bind Den.advance Asks.advance fun _ => ask_addAll _
  intro e v k ks _
  sema
  single
  grind

/-! ### Memory operands -/

/-- The beginnings of the base of a memory operand. -/
theorem ask_base : Asks (getKind >>= fun t => match t with
    | .reg n => do
      advance
      tryReuse 8
      M.pure n
    | _ => M.pure 255) (fun _ _ => OpensReg 8) := by
  apply Asks.conv
  · apply Asks.byKind (W := fun t _ _ _ ks => OpensReg 8 t ks)
    intro t
    have h := ask_tryReuse 8
    have h' := den_tryReuse 8
    cases t <;> dsimp only
    case reg n =>
      apply Asks.conv
      · exact Asks.bind Den.advance Asks.advance fun _ => Asks.bind h' h fun _ => Asks.pure _
      intro e v k ks _
      rw [andThen_adv]
      unfold OpensReg andThen never
      simp [reuseFlag]
    all_goals
      apply (Asks.pure _).conv
      intro e v k ks _
      simp [OpensReg, never]
  intro e v k ks _
  exact Iff.rfl

/-- The beginnings of the rest of a memory operand. -/
def OpensOff (i : Bool) (w n : Nat) (k : Kind) (ks : List Kind) : Prop :=
  (k = .rbracket ∧ ks = []) ∨ (i = true ∧ ∃ y : Int, k :: ks <+: [.imm y, .rbracket] ∧
    (if n = 255 then 0 ≤ y ∧ y < 2 ^ w else -(2 ^ (w - 1)) ≤ y ∧ y < 2 ^ (w - 1)))

/-- The beginnings of a memory operand. -/
def OpensMemory (i : Bool) (a w sh : Nat) (k : Kind) (ks : List Kind) : Prop :=
  ∃ l, k :: ks <+: l ∧ ∃ k' b r, memory i a w sh l k' b r

theorem Asks.assoc {m : M α} {f : α → M β} {g : β → M γ} {P : Ask} (h : Asks ((m >>= f) >>= g) P) :
    Asks (m >>= fun x => f x >>= g) P := by
  intro s hs
  rw [← h s hs]
  simp only [M.bind_def]
  cases m false s <;> rfl

theorem memory_asks {i : Bool} {a w sh : Nat} {e : Env} {v : BitVec 64} {k : Kind} {ks : List Kind} :
    andThen (still fun _ _ _ k => k = .lbracket) never (fun _ : Unit => andThen adv atEnd fun _ =>
      andThen baseSem (fun _ _ => OpensReg 8) fun n =>
      andThen (add (field 8 n)) never fun _ => fun _ _ => OpensOff i w n) e v k ks ↔ OpensMemory i a w sh k ks := by
  rw [andThen_still]
  simp only [andThen_adv]
  unfold OpensMemory
  constructor
  · rintro ⟨-, rfl, rfl | ⟨k', ks', rfl, h⟩⟩
    · exact ⟨[.lbracket, .rbracket], by simp, .vbar, _, 0, 255, [], [], rfl, .inr ⟨rfl, rfl, rfl⟩, .inl ⟨rfl, rfl⟩⟩
    · unfold andThen at h
      rcases h with h | ⟨n, ks1, k2, ks2, b, r, he, ⟨-, hb⟩, h⟩
      · obtain ⟨rest, b, r, n, l, he, -, h⟩ := (opensReg_iff (k' := .rbracket) (by simp)).1 h
        exact ⟨.lbracket :: (.reg n :: l ++ ([] ++ [.rbracket])), ⟨rest ++ [.rbracket], by simp [← he]⟩, .vbar, _, r, n,
          .reg n :: l, [], rfl, .inl ⟨l, rfl, h⟩, .inl ⟨rfl, rfl⟩⟩
      · obtain h | ⟨-, ks5, k5, ks6, b5, r5, he5, ⟨rfl, -, -⟩, h⟩ := h
        · exact h.elim
        simp only [List.nil_append, List.cons.injEq] at he5
        obtain ⟨rfl, rfl⟩ := he5
        have hb' : ∀ off : List Kind, off.headD .rbracket = k2 → (∃ rest, ks1 = .reg n :: rest ∧ reuse 8 rest (off.headD .rbracket) r) ∨
            (ks1 = [] ∧ n = 255 ∧ r = 0) := by
          rintro off rfl
          rcases hb with hb | hb
          · exact .inl hb
          · exact .inr ⟨hb.1, hb.2.2⟩
        rcases h with ⟨rfl, rfl⟩ | ⟨hi, y, hp, hy⟩
        · exact ⟨.lbracket :: (ks1 ++ ([] ++ [.rbracket])), ⟨[], by rw [he]; simp⟩, .vbar, _, r, n, ks1, [], rfl,
            hb' [] rfl, .inl ⟨rfl, rfl⟩⟩
        · obtain ⟨rest, hr⟩ := hp
          simp only [List.cons_append, List.cons.injEq] at hr
          obtain ⟨rfl, hr⟩ := hr
          exact ⟨.lbracket :: (ks1 ++ ([.imm y] ++ [.rbracket])), ⟨rest, by rw [he]; simp [hr]⟩, .vbar, _, r, n, ks1,
            [.imm y], rfl, hb' [.imm y] rfl, .inr ⟨hi, y, rfl, hy, rfl⟩⟩
  · rintro ⟨l, hp, k', b, r, n, base, off, rfl, hb, ho⟩
    rw [List.cons_prefix_cons] at hp
    obtain ⟨rfl, hp⟩ := hp
    refine ⟨(), rfl, ?_⟩
    rcases ks with _ | ⟨k1, ks⟩
    · exact .inl rfl
    refine .inr ⟨_, _, rfl, ?_⟩
    have hoff : ∀ k2 ks2, k2 :: ks2 <+: off ++ [.rbracket] → OpensOff i w n k2 ks2 := by
      intro k2 ks2 hq
      rcases ho with ⟨rfl, -⟩ | ⟨hi, y, rfl, hy, -⟩
      · simp at hq
        exact .inl hq
      · exact .inr ⟨hi, y, hq, hy⟩
    have hhead : ∀ k2 ks2, k2 :: ks2 <+: off ++ [.rbracket] → off.headD .rbracket = k2 := by
      intro k2 ks2 hq
      cases off with
      | nil => simp at hq; simp [hq]
      | cons x off => rw [List.cons_append, List.cons_prefix_cons] at hq; simp [hq]
    have hm : ∀ m, off.headD .rbracket ≠ .reg m := by
      intro m
      rcases ho with ⟨rfl, -⟩ | ⟨hi, y, rfl, hy, -⟩ <;> simp
    unfold andThen
    rcases hb with ⟨rest, rfl, hr⟩ | ⟨rfl, rfl, rfl⟩
    · rw [List.cons_append, List.cons_prefix_cons] at hp
      obtain ⟨rfl, hp⟩ := hp
      rcases hr with ⟨rfl, hr⟩ | ⟨rfl, hr, rfl⟩
      · rcases ks with _ | ⟨k2, ks⟩
        · exact .inl ⟨⟨n, rfl⟩, .inl rfl⟩
        · rw [List.cons_append, List.cons_prefix_cons, List.nil_append] at hp
          obtain ⟨rfl, hp⟩ := hp
          rcases ks with _ | ⟨k2, ks⟩
          · exact .inl ⟨⟨n, rfl⟩, .inr ⟨rfl, by simp [hr]⟩⟩
          · refine .inr ⟨n, [_, _], k2, ks, 0, r, rfl, ⟨rfl, .inl ⟨_, rfl, .inl ⟨rfl, hr⟩⟩⟩, .inr ⟨(), [], _, _, _, 0, rfl, ⟨rfl, rfl, rfl⟩, hoff _ _ hp⟩⟩
      · rw [List.nil_append] at hp
        rcases ks with _ | ⟨k2, ks⟩
        · exact .inl ⟨⟨n, rfl⟩, .inl rfl⟩
        · refine .inr ⟨n, [_], k2, ks, 0, 0, rfl, ⟨rfl, .inl ⟨[], rfl, .inr ⟨rfl, ?_, rfl⟩⟩⟩, .inr ⟨(), [], _, _, _, 0, rfl, ⟨rfl, rfl, rfl⟩, hoff _ _ hp⟩⟩
          rwa [hhead _ _ hp] at hr
    · rw [List.nil_append] at hp
      refine .inr ⟨255, [], k1, ks, 0, 0, rfl, ⟨rfl, .inr ⟨rfl, ?_, rfl, rfl⟩⟩, .inr ⟨(), [], _, _, _, 0, rfl, ⟨rfl, rfl, rfl⟩, hoff _ _ hp⟩⟩
      rw [← hhead _ _ hp]
      exact hm

theorem ask_memory (i : Bool) (a w sh : Nat) : Asks (runMemAddress i a w sh) (fun _ _ => OpensMemory i a w sh) := by
  unfold runMemAddress
  apply Asks.conv (hi := fun _ _ _ _ _ => memory_asks)
  refine Asks.bind (Den.confirm _) (Asks.confirm _) fun _ => Asks.bind Den.advance Asks.advance fun _ =>
    Asks.assoc (Asks.bind den_base ask_base fun n => ?_)
  rw [← field_eq]
  refine Asks.bind (Den.addBits _) (Asks.addBits _) fun _ => ?_
  cases i <;> simp only [Bool.false_eq_true, if_true, if_false]
  · apply Asks.conv
    · ask
    intro e v k ks _
    sema
    simp [OpensOff]
  · apply Asks.conv
    · apply Asks.byKind (W := fun t _ _ k ks =>
        (∃ x y, t = .imm x ∧ k :: ks <+: [.imm y, .rbracket] ∧
          (if n = 255 then 0 ≤ y ∧ y < 2 ^ w else -(2 ^ (w - 1)) ≤ y ∧ y < 2 ^ (w - 1))) ∨
          ((∀ x, t ≠ .imm x) ∧ k = .rbracket ∧ ks = []))
      intro t
      cases t
      case imm x =>
        dsimp only
        apply Asks.conv
        · ask
        intro e v k ks _
        sema
        simp only [maxBits]
        constructor
        · rintro ⟨y, ⟨rfl, h2, h3⟩, h4⟩
          refine .inl ⟨x, y, rfl, ?_, ?_⟩
          · rcases h4 with rfl | ⟨k', ks', rfl, rfl, rfl⟩ <;> simp
          by_cases hn : n = 255 <;> simp only [hn, decide_true, decide_false, if_true, if_false, Bool.false_eq_true] at h2 h3 ⊢
          all_goals omega
        · rintro (⟨_, y, -, hp, hy⟩ | ⟨h1, -⟩)
          · rw [List.cons_prefix_cons] at hp
            obtain ⟨rfl, hp⟩ := hp
            simp only [List.prefix_cons_iff, List.prefix_nil] at hp
            refine ⟨y, ⟨rfl, ?_⟩, ?_⟩
            · by_cases hn : n = 255 <;> simp only [hn, decide_true, decide_false, if_true, if_false, Bool.false_eq_true] at hy ⊢
              all_goals omega
            · rcases hp with rfl | ⟨_, rfl, rfl⟩
              · exact .inl rfl
              · exact .inr ⟨_, _, rfl, rfl, rfl⟩
          · exact absurd rfl (h1 x)
      all_goals
        dsimp only
        apply Asks.conv
        · ask
        intro e v k ks _
        sema
        simp
    intro e v k ks _
    unfold OpensOff
    simp only [true_and]
    constructor
    · rintro (⟨x, y, -, hp, hy⟩ | ⟨-, h⟩)
      · exact .inr ⟨y, hp, hy⟩
      · exact .inl h
    · rintro (⟨rfl, rfl⟩ | ⟨y, hp, hy⟩)
      · exact .inr ⟨by simp, rfl, rfl⟩
      · have := hp
        rw [List.cons_prefix_cons] at this
        exact .inl ⟨y, y, this.1, hp, hy⟩

theorem ask_memAddress (i : Bool) (a w sh : Nat) : Asks (runMemAddress i a w sh) (fun e v => Opens e v (.memAddress i a w sh)) :=
  (ask_memory i a w sh).conv fun _ _ _ _ _ => by rw [opens_iff]; exact Iff.rfl

theorem ask_ldcAddress : Asks runLdcAddress (fun e v => Opens e v .ldcAddress) := by
  unfold runLdcAddress
  have hm := ask_memory true 20 16 0
  apply Asks.conv
  · ask
  intro e v k ks _
  sema
  rw [opens_iff]
  simp only [Accepts, maxBits]
  have hz : memory true 20 16 0 [.lbracket, .rbracket] .vbar (field 8 255) 0 :=
    ⟨255, [], [], rfl, .inr ⟨rfl, rfl, rfl⟩, .inl ⟨rfl, rfl⟩⟩
  constructor
  · intro h
    have : ∃ (x : Nat) (rest : List Kind), k :: ks <+: .ident c!"c" :: .lbracket :: .imm x :: .rbracket :: rest ∧
        x < 32 ∧ ∃ k' b r, memory true 20 16 0 rest k' b r := by
      obtain ⟨rfl, h⟩ := h
      simp only [List.cons_prefix_cons, true_and]
      rcases h with rfl | ⟨_, _, rfl, rfl, h⟩
      · exact ⟨0, _, by simp, by omega, _, _, _, hz⟩
      simp only [List.cons_prefix_cons, true_and]
      rcases h with rfl | ⟨_, _, rfl, x, ⟨rfl, h1, h2⟩, h⟩
      · exact ⟨0, _, by simp, by omega, _, _, _, hz⟩
      obtain ⟨x, rfl⟩ := Int.eq_ofNat_of_zero_le h1
      refine ⟨x, ?_⟩
      simp only [List.cons_prefix_cons, true_and]
      have h2 : x < 32 := by omega
      rcases h with rfl | ⟨_, _, rfl, rfl, h⟩
      · exact ⟨_, by simp, h2, _, _, _, hz⟩
      simp only [List.cons_prefix_cons, true_and]
      rcases h with rfl | ⟨_, _, rfl, l, hl, h⟩
      · exact ⟨_, by simp, h2, _, _, _, hz⟩
      · exact ⟨l, hl, h2, h⟩
    obtain ⟨x, rest, h1, h2, k', b, r, h3⟩ := this
    exact ⟨_, h1, k', _, r, x, rest, b, rfl, h2, rfl, h3⟩
  · rintro ⟨l, hl, k', b, r, x, rest, b1, rfl, h1, -, h3⟩
    rw [List.cons_prefix_cons] at hl
    obtain ⟨rfl, hl⟩ := hl
    refine ⟨rfl, ?_⟩
    rw [List.prefix_cons_iff] at hl
    rcases hl with rfl | ⟨_, rfl, hl⟩
    · exact .inl rfl
    refine .inr ⟨_, _, rfl, rfl, ?_⟩
    rw [List.prefix_cons_iff] at hl
    rcases hl with rfl | ⟨_, rfl, hl⟩
    · exact .inl rfl
    refine .inr ⟨_, _, rfl, x, ⟨rfl, by omega, by omega⟩, ?_⟩
    rw [List.prefix_cons_iff] at hl
    rcases hl with rfl | ⟨ks, rfl, hl⟩
    · exact .inl rfl
    refine .inr ⟨_, _, rfl, rfl, ?_⟩
    rcases ks with _ | ⟨k1, ks⟩
    · exact .inl rfl
    exact .inr ⟨_, _, rfl, rest, hl, k', b1, r, h3⟩

/-! ### Attributes -/

theorem ask_attrOpen : Asks attrOpen (fun _ _ k ks => k = .ident c!"a" ∧ (ks = [] ∨ ks = [.lbracket])) := by
  unfold attrOpen
  apply Asks.conv
  · ask
  intro e v k ks _
  sema
  grind

theorem ask_attrClose : Asks attrClose (fun _ _ k ks => k = .rbracket ∧ ks = []) := by
  unfold attrClose
  apply Asks.conv
  · ask
  intro e v k ks _
  sema

/-- The beginnings of a piece between `a[` and `]`. -/
theorem attr_asks {P : Sem Unit} {W : Ask} {e : Env} {v : BitVec 64} {k : Kind} {ks : List Kind}
    (hc : ∃ ks b r, P e v () ks .rbracket b r)
    (hW : ∀ k ks, W e v k ks ↔ ∃ rest b r, P e v () (k :: (ks ++ rest)) .rbracket b r) :
    andThen (fun _ _ (_ : Unit) ks _ b r => ks = [.ident c!"a", .lbracket] ∧ b = 0 ∧ r = 0)
      (fun _ _ k ks => k = .ident c!"a" ∧ (ks = [] ∨ ks = [.lbracket])) (fun _ =>
      andThen P W fun _ => (fun _ _ k ks => k = .rbracket ∧ ks = [])) e v k ks ↔
    ∃ l ks1 b r, k :: ks <+: l ∧ l = .ident c!"a" :: .lbracket :: (ks1 ++ [.rbracket]) ∧ P e v () ks1 .rbracket b r := by
  constructor
  · rintro (⟨rfl, h⟩ | ⟨-, _, k2, ks2, _, _, he, ⟨rfl, rfl, rfl⟩, h⟩)
    · obtain ⟨ks1, b, r, hP⟩ := hc
      exact ⟨_, ks1, b, r, by rcases h with rfl | rfl <;> simp, rfl, hP⟩
    · simp only [List.cons_append, List.nil_append, List.cons.injEq] at he
      obtain ⟨rfl, rfl⟩ := he
      simp only [show v ||| 0 = v by simp] at h
      rcases h with h | ⟨_, ks1, k3, ks3, b, r, he, hP, rfl, rfl⟩
      · obtain ⟨rest, b, r, hP⟩ := (hW _ _).1 h
        exact ⟨_, _, b, r, ⟨rest ++ [.rbracket], by simp⟩, rfl, hP⟩
      · exact ⟨_, ks1, b, r, ⟨[], by rw [he]; simp⟩, rfl, hP⟩
  · rintro ⟨_, ks1, b, r, hl, rfl, hP⟩
    rw [List.cons_prefix_cons] at hl
    obtain ⟨rfl, hl⟩ := hl
    rw [List.prefix_cons_iff] at hl
    rcases hl with rfl | ⟨ks, rfl, hl⟩
    · exact .inl ⟨rfl, .inl rfl⟩
    rcases ks with _ | ⟨k1, ks⟩
    · exact .inl ⟨rfl, .inr rfl⟩
    refine .inr ⟨(), [_, _], k1, ks, 0, 0, rfl, ⟨rfl, rfl, rfl⟩, ?_⟩
    simp only [show v ||| 0 = v by simp]
    rcases List.prefix_concat_iff.1 hl with hl | hl
    · refine .inr ⟨(), ks1, .rbracket, [], b, r, hl, hP, rfl, rfl⟩
    · obtain ⟨rest, rfl⟩ := hl
      exact .inl ((hW _ _).2 ⟨rest, b, r, hP⟩)

theorem ask_physAttr : Asks runPhysAttr (fun e v => Opens e v .physAttr) := by
  unfold runPhysAttr
  apply Asks.conv
  · exact Asks.bind den_attrOpen ask_attrOpen fun _ => Asks.bind (den_gpr _) (ask_gpr' _) fun _ => ask_attrClose
  intro e v k ks _
  rw [attr_asks ⟨[.reg 0], _, 0, 0, [], rfl, rfl, .inr ⟨rfl, by simp, rfl⟩⟩ fun k ks => opensReg_iff (by simp), opens_iff]
  constructor
  · rintro ⟨l, ks1, b, r, hl, rfl, n, rest, rfl, rfl, h⟩
    exact ⟨_, hl, .vbar, _, r, n, rest, rfl, h, rfl⟩
  · rintro ⟨l, hl, k', b, r, n, rest, rfl, h, rfl⟩
    exact ⟨_, _, _, r, hl, rfl, n, rest, rfl, rfl, h⟩

theorem ask_immAttr : Asks runImmAttr (fun e v => Opens e v .immAttr) := by
  unfold runImmAttr
  apply Asks.conv
  · exact Asks.bind den_attrOpen ask_attrOpen fun _ => Asks.assoc (Asks.bind
      (Den.bind (den_uint _ _) fun _ => Den.addBits _)
      (Asks.bind (den_uint _ _) (ask_uint _ _) fun _ => Asks.addBits _) fun _ => ask_attrClose)
  intro e v k ks _
  rw [attr_asks ⟨[.imm 0], field 20 0 ||| _, 0, (), [.imm 0], [], field 20 0, _, 0, 0, ⟨rfl, 0, rfl, by decide, rfl⟩, ⟨rfl, rfl, rfl⟩, rfl, rfl, rfl⟩]
  · rw [opens_iff]
    constructor
    · rintro ⟨l, ks1, b, r, hl, rfl, u, _, _, b1, b2, r1, r2, ⟨rfl, x, rfl, h, rfl⟩, ⟨rfl, rfl, rfl⟩, rfl, rfl, rfl⟩
      exact ⟨_, hl, .vbar, _, 0, rfl, x, rfl, by simp only [maxBits] at h; omega, rfl⟩
    · rintro ⟨l, hl, k', b, r, rfl, x, rfl, h, rfl⟩
      exact ⟨_, [.imm x], _, 0, hl, rfl, (), [.imm x], [], field 20 x, _, 0, 0,
        ⟨rfl, x, rfl, by simp only [maxBits]; omega, rfl⟩, ⟨rfl, rfl, rfl⟩, rfl, rfl, rfl⟩
  · intro k ks
    constructor
    · rintro (⟨rest, k', b, r, rfl, x, he, h, rfl⟩ | ⟨_, _, _, _, _, _, _, _, h⟩)
      · exact ⟨rest, _, 0, (), _, [], field 20 x, _, 0, 0, ⟨rfl, x, he, h, rfl⟩, ⟨rfl, rfl, rfl⟩, by simp, rfl, rfl⟩
      · exact h.elim
    · rintro ⟨rest, _, _, u, ks1, _, b1, b2, r1, r2, ⟨rfl, x, rfl, h, rfl⟩, ⟨rfl, rfl, rfl⟩, he, rfl, rfl⟩
      exact .inl ⟨rest, .vbar, _, 0, rfl, x, he, h, rfl⟩

theorem ask_patchAttr : Asks runPatchAttr (fun e v => Opens e v .patchAttr) := by
  unfold runPatchAttr
  apply Asks.conv
  · exact Asks.bind den_attrOpen ask_attrOpen fun _ => Asks.bind (den_gpr _) (ask_gpr' _) fun _ =>
      Asks.bind Den.getKind Asks.getKind fun _ => Asks.ite
        (Asks.bind Den.advance Asks.advance fun _ => Asks.bind (den_sint _ _) (ask_sint _ _) fun _ => ask_attrClose)
        (Asks.bind (Den.pure _) (Asks.pure _) fun _ => Asks.bind (den_sint _ _) (ask_sint _ _) fun _ => ask_attrClose)
  intro e v k ks _
  rw [opens_iff]
  have hs : ∀ (v : BitVec 64) k ks, (Opens e v (.sint 11 20) k ks ∨ ∃ (x : Unit) (ks1 : List Kind) (k2 : Kind) (ks2 : List Kind) (b : BitVec 64) (r : BitVec 32),
      k :: ks = ks1 ++ k2 :: ks2 ∧ Accepts e v (.sint 11 20) ks1 k2 b r ∧ k2 = .rbracket ∧ ks2 = []) ↔
      ∃ y : Int, k :: ks <+: [.imm y, .rbracket] ∧ -(2 ^ 10) ≤ y ∧ y < 2 ^ 10 := by
    intro v k ks
    constructor
    · rintro (⟨rest, k', b, r, rfl, y, he, h1, h2, rfl⟩ | ⟨-, ks1, k2, ks2, b, r, he, ⟨rfl, y, rfl, h1, h2, rfl⟩, rfl, rfl⟩)
      · simp only [List.cons.injEq, List.append_eq_nil_iff] at he
        obtain ⟨rfl, rfl, -⟩ := he
        exact ⟨y, by simp, by omega, by omega⟩
      · exact ⟨y, ⟨[], by rw [he]; rfl⟩, by omega, by omega⟩
    · rintro ⟨y, hp, h1, h2⟩
      rw [List.cons_prefix_cons, List.prefix_cons_iff] at hp
      simp only [List.prefix_nil] at hp
      obtain ⟨rfl, rfl | ⟨_, rfl, rfl⟩⟩ := hp
      · exact .inl ⟨[], .vbar, _, 0, rfl, y, rfl, by omega, by omega, rfl⟩
      · exact .inr ⟨(), [.imm y], .rbracket, [], _, 0, rfl, ⟨rfl, y, rfl, by omega, by omega, rfl⟩, rfl, rfl⟩
  have hz : (0 : Int) < 2 ^ 10 ∧ -(2 ^ 10) ≤ (0 : Int) := by decide
  constructor
  · intro h
    have key : ∃ n rest plus, ∃ y : Int, ∃ r, k :: ks <+: .ident c!"a" :: .lbracket :: .reg n :: (rest ++ (plus ++ [.imm y, .rbracket])) ∧
        (plus = [] ∨ plus = [.plus]) ∧ reuse 8 rest (plus.headD (.imm y)) r ∧ -(2 ^ 10) ≤ y ∧ y < 2 ^ 10 := by
      rcases h with ⟨rfl, h⟩ | ⟨-, _, k2, ks2, _, _, he, ⟨rfl, rfl, rfl⟩, h⟩
      · exact ⟨0, [], [], 0, 0, by rcases h with rfl | rfl <;> simp, .inl rfl, .inr ⟨rfl, by simp, rfl⟩, hz.2, hz.1⟩
      simp only [List.cons_append, List.nil_append, List.cons.injEq] at he
      obtain ⟨rfl, rfl⟩ := he
      simp only [List.cons_prefix_cons, true_and]
      rcases h with h | ⟨-, _, k3, ks3, b, r, he, ⟨n, rest, rfl, rfl, hr⟩, h⟩
      · obtain ⟨rest, b, r, n, l, he, -, h⟩ := (opensReg_iff (k' := .imm 0) (by simp)).1 h
        simp only [List.cons.injEq] at he
        obtain ⟨rfl, rfl⟩ := he
        exact ⟨n, ks2 ++ rest, [], 0, r, ⟨rfl, rest ++ [.imm 0, .rbracket], by simp⟩, .inl rfl, h, hz.2, hz.1⟩
      simp only [List.cons_append, List.cons.injEq] at he
      obtain ⟨rfl, rfl⟩ := he
      refine ⟨n, rest, ?_⟩
      simp only [true_and, List.prefix_append_right_inj]
      rw [andThen_still] at h
      obtain ⟨_, rfl, ⟨rfl, h⟩ | ⟨hn, h⟩⟩ := h
      · rw [andThen_adv] at h
        rcases h with rfl | ⟨k4, ks4, rfl, h⟩
        · exact ⟨[.plus], 0, r, by simp, .inr rfl, hr, hz.2, hz.1⟩
        · obtain ⟨y, hp, h1, h2⟩ := (hs _ _ _).1 h
          exact ⟨[.plus], y, r, by simpa using hp, .inr rfl, hr, h1, h2⟩
      · rw [andThen_still] at h
        obtain ⟨_, -, h⟩ := h
        obtain ⟨y, hp, h1, h2⟩ := (hs _ _ _).1 h
        refine ⟨[], y, r, by simpa using hp, .inl rfl, ?_, h1, h2⟩
        rw [List.cons_prefix_cons] at hp
        simpa [hp.1] using hr
    obtain ⟨n, rest, plus, y, r, hp, h1, h2, h3, h4⟩ := key
    exact ⟨_, hp, .vbar, _, r, n, rest, plus, y, rfl, h1, h2, h3, h4, rfl⟩
  · rintro ⟨_, hp, k', b, r, n, rest, plus, y, rfl, h1, h2, h3, h4, rfl⟩
    rw [List.cons_prefix_cons] at hp
    obtain ⟨rfl, hp⟩ := hp
    rw [List.prefix_cons_iff] at hp
    rcases hp with rfl | ⟨ks, rfl, hp⟩
    · exact .inl ⟨rfl, .inl rfl⟩
    rcases ks with _ | ⟨k1, ks⟩
    · exact .inl ⟨rfl, .inr rfl⟩
    refine .inr ⟨(), [_, _], k1, ks, 0, 0, rfl, ⟨rfl, rfl, rfl⟩, ?_⟩
    rw [List.cons_prefix_cons] at hp
    obtain ⟨rfl, hp⟩ := hp
    have htail : ∀ k2 ks2, k2 :: ks2 <+: plus ++ [.imm y, .rbracket] → ∀ v, andThen (still fun _ _ a k => a = k) never
        (fun a => altA (a = Kind.plus) (andThen adv atEnd fun _ => andThen (fun e v (_ : Unit) => Accepts e v (.sint 11 20))
            (fun e v => Opens e v (.sint 11 20)) fun _ => fun _ _ k ks => k = .rbracket ∧ ks = [])
          (andThen (still fun _ _ (a : Unit) _ => a = ()) never fun _ => andThen (fun e v (_ : Unit) => Accepts e v (.sint 11 20))
            (fun e v => Opens e v (.sint 11 20)) fun _ => fun _ _ k ks => k = .rbracket ∧ ks = [])) e v k2 ks2 := by
      intro k2 ks2 hq v
      rw [andThen_still]
      refine ⟨k2, rfl, ?_⟩
      rcases h1 with rfl | rfl
      · refine .inr ⟨?_, andThen_still.2 ⟨(), rfl, (hs _ _ _).2 ⟨y, hq, h3, h4⟩⟩⟩
        rw [List.nil_append, List.cons_prefix_cons] at hq
        simp [hq.1]
      · rw [List.cons_append, List.cons_prefix_cons] at hq
        obtain ⟨rfl, hq⟩ := hq
        refine .inl ⟨rfl, andThen_adv.2 ?_⟩
        rcases ks2 with _ | ⟨k3, ks3⟩
        · exact .inl rfl
        · exact .inr ⟨k3, ks3, rfl, (hs _ _ _).2 ⟨y, hq, h3, h4⟩⟩
    have hhead : ∀ k2 ks2, k2 :: ks2 <+: plus ++ [.imm y, .rbracket] → plus.headD (.imm y) = k2 := by
      intro k2 ks2 hq
      rcases h1 with rfl | rfl <;> simp at hq <;> simp [hq.1]
    rcases h2 with ⟨rfl, hr⟩ | ⟨rfl, hr, rfl⟩
    · rcases ks with _ | ⟨k2, ks⟩
      · exact .inl ⟨⟨n, rfl⟩, .inl rfl⟩
      rw [List.cons_append, List.cons_prefix_cons, List.nil_append] at hp
      obtain ⟨rfl, hp⟩ := hp
      rcases ks with _ | ⟨k2, ks⟩
      · exact .inl ⟨⟨n, rfl⟩, .inr ⟨rfl, by simp [hr]⟩⟩
      exact .inr ⟨(), [_, _], k2, ks, _, r, rfl, ⟨n, [_], rfl, rfl, .inl ⟨rfl, hr⟩⟩, htail _ _ hp _⟩
    · rw [List.nil_append] at hp
      rcases ks with _ | ⟨k2, ks⟩
      · exact .inl ⟨⟨n, rfl⟩, .inl rfl⟩
      refine .inr ⟨(), [_], k2, ks, _, 0, rfl, ⟨n, [], rfl, rfl, .inr ⟨rfl, ?_, rfl⟩⟩, htail _ _ hp _⟩
      rwa [hhead _ _ hp] at hr

/-! ### Absolute values -/

theorem ask_abs (a : Nat) {inner : Operand} (hd : Den inner.run (fun e v _ => Accepts e v inner))
    (ha : Asks inner.run (fun e v => Opens e v inner))
    (hc : ∀ e v, ∃ ks b r, Accepts e v inner ks .vbar b r)
    (hv : ∀ e v k ks, Opens e v inner k ks → ∃ rest b r, Accepts e v inner (k :: (ks ++ rest)) .vbar b r) :
    Asks (runAbs a inner.run) (fun e v => Opens e v (.abs a inner)) := by
  unfold runAbs
  apply Asks.conv
  · exact Asks.bind Den.getKind Asks.getKind fun _ => Asks.ite
      (Asks.bind (Den.addBits _) (Asks.addBits _) fun _ => Asks.bind Den.advance Asks.advance fun _ =>
        Asks.bind hd ha fun _ => Asks.bind (Den.confirm _) (Asks.confirm _) fun _ => Asks.advance) ha
  intro e v k ks _
  rw [andThen_still]
  simp only [altA, exists_eq_left, andThen_add, andThen_adv]
  constructor
  · rintro (⟨rfl, h⟩ | ⟨hk, rest, k', b, r, h⟩)
    · have key : ∃ ks1 b r, Accepts e (v ||| field a 1) inner ks1 .vbar b r ∧ ks <+: ks1 ++ [.vbar] := by
        rcases h with rfl | ⟨k', ks', rfl, h⟩
        · obtain ⟨ks1, b, r, h⟩ := hc e (v ||| field a 1)
          exact ⟨ks1, b, r, h, List.nil_prefix⟩
        rw [field_eq] at h
        rcases h with h | ⟨_, ks1, k2, ks2, b, r, he, hP, h⟩
        · obtain ⟨rest, b, r, h⟩ := hv _ _ _ _ h
          exact ⟨_, b, r, h, rest ++ [.vbar], by simp⟩
        · rw [andThen_still] at h
          obtain ⟨_, rfl, rfl⟩ := h
          exact ⟨ks1, b, r, hP, [], by rw [he]; simp⟩
      obtain ⟨ks1, b, r, h, rest, hr⟩ := key
      exact ⟨rest, .vbar, _, r, .inl ⟨ks1, b, by rw [hr], rfl, h⟩⟩
    · exact ⟨rest, k', b, r, .inr ⟨hk, h⟩⟩
  · rintro ⟨rest, k', b, r, ⟨ks1, b1, he, rfl, h⟩ | ⟨hk, h⟩⟩
    · simp only [List.cons.injEq] at he
      obtain ⟨rfl, he⟩ := he
      refine .inl ⟨rfl, ?_⟩
      rcases ks with _ | ⟨k1, ks⟩
      · exact .inl rfl
      refine .inr ⟨k1, ks, rfl, ?_⟩
      rw [field_eq]
      rcases List.prefix_concat_iff.1 ⟨rest, he⟩ with hl | ⟨l, hl⟩
      · exact .inr ⟨(), ks1, .vbar, [], b1, r, hl, h, andThen_still.2 ⟨(), rfl, rfl⟩⟩
      · exact .inl ⟨l, .vbar, b1, r, by rwa [← hl] at h⟩
    · exact .inr ⟨hk, rest, k', b, r, h⟩

theorem ask_abs_gpr (a b : Nat) : Asks (Operand.run (.abs a (.gpr b))) (fun e v => Opens e v (.abs a (.gpr b))) := by
  apply ask_abs a (inner := .gpr b) (den_operand (.gpr b) rfl) (ask_gpr b)
  · intro e v
    exact ⟨[.reg 0], _, 0, 0, [], rfl, rfl, .inr ⟨rfl, by simp, rfl⟩⟩
  · intro e v k ks h
    exact (opensReg_iff (by simp)).1 (opensReg_opens.2 h)

theorem ask_abs_cbuf (a : Nat) : Asks (Operand.run (.abs a .cbuf)) (fun e v => Opens e v (.abs a .cbuf)) := by
  apply ask_abs a (inner := .cbuf) (den_operand .cbuf rfl) ask_cbuf
  · intro e v
    exact ⟨_, _, 0, rfl, 0, 0, rfl, by decide, by decide, by decide, by decide, rfl⟩
  · rintro e v k ks ⟨rest, k', b, r, h⟩
    exact ⟨rest, b, r, h⟩

/-! ### Operands that replace bits -/

theorem ask_mirrorGpr (a : Nat) : Asks (runMirror a) (fun e v => Opens e v (.gpr a)) := by
  intro s hs
  unfold runMirror
  rw [getValue_bind]
  have h := ask_gpr a { s with op := { s.op with value := s.op.value &&& ~~~(0xFF#64 <<< a) } } hs
  refine Iff.trans ?_ h
  constructor
  · intro h
    rcases bind_ub h with h | ⟨x, s1, h1, h2⟩
    · simp [setValue] at h
    rw [setValue_iff] at h1
    subst h1
    rcases bind_ub h2 with h | ⟨x, s1, h1, h2⟩
    · exact h
    · rcases bind_ub h2 with h | ⟨x, s1, h1, h2⟩
      · simp [getValue] at h
      · split at h2 <;> simp [failTok, M.pure] at h2
  · intro h
    rw [M.bind_def]
    simp only [setValue]
    rw [M.bind_def, show assembleGpr a false _ = _ from h]

theorem ask_tldsType (a : Nat) : Asks (runTldsType a) (fun e v => Opens e v (.tldsType a)) := by
  intro s hs
  unfold runTldsType
  rw [getValue_bind]
  simp only [flag_iff]
  generalize hll : (bitsAt s.op.value a 1 == 1) = ll
  generalize hao : (bitsAt s.op.value (a + 1) 1 == 1) = ao
  generalize hms : (bitsAt s.op.value (a + 2) 1 == 1) = ms
  have ha : Asks (findInTable true [c!"1D", c!"2D", c!"3D", c!"ARRAY_2D"] [] >>= fun r => match r with
      | none => failTok "expected 1D, 2D, ARRAY_2D, or 3D"
      | some i =>
        match tldsMode i ll ao ms with
        | .error msg => failTok msg
        | .ok mode => do
          addBits (BitVec.ofNat 64 mode <<< a)
          advance) (fun _ _ k ks => ks = [] ∧ ∃ w x, k = .ident w ∧ (w, ll, ao, ms, x) ∈ tldsCodes) := by
    apply Asks.conv
    · apply Asks.bindOpt (Den.findInTable _ _ _) (Asks.findInTable _ _ _) (Q := fun i _ _ _ ks => ks = [] ∧ ∃ x, tldsMode i ll ao ms = .ok x)
      · exact Asks.failTok _
      · intro i
        dsimp only
        cases hm : tldsMode i ll ao ms with
        | error => apply Asks.conv (Asks.failTok _); simp [never]
        | ok x =>
          apply Asks.conv
          · ask
          intro e v k ks _
          sema
          simp
    intro e v k ks _
    sema
    simp only [tldsCodes_iff]
    constructor
    · rintro ⟨i, he, rfl, x, hm⟩
      obtain ⟨name, rfl, h1, h2⟩ := he
      exact ⟨rfl, name, x, rfl, i, ⟨name, rfl, h1, h2⟩, hm⟩
    · rintro ⟨rfl, w, x, rfl, i, he, hm⟩
      exact ⟨i, he, rfl, x, hm⟩
  have h := ha { s with op := { s.op with value := s.op.value &&& ~~~(7#64 <<< a) } } hs
  refine Iff.trans (Iff.trans Iff.rfl h) ?_
  dsimp only
  have hi : ∀ ks, (ks = [] ∧ ∃ w x, s.tok.kind = .ident w ∧ (w, ll, ao, ms, x) ∈ tldsCodes) ↔
      Opens s.ctx.env s.op.value (.tldsType a) s.tok.kind ks := by
    intro ks
    unfold Opens
    simp only [Accepts, hll, hao, hms]
    constructor
    · rintro ⟨rfl, w, x, hw, h⟩
      exact ⟨[], .vbar, _, 0, rfl, w, x, by rw [hw]; rfl, rfl, h⟩
    · rintro ⟨rest, k', b, r, rfl, w, x, he, rfl, h⟩
      simp only [List.cons.injEq, List.append_eq_nil_iff] at he
      exact ⟨he.2.1, w, x, he.1, h⟩
  simp only [hi]

theorem ask_texsType (a : Nat) : Asks (runTexsType a) (fun e v => Opens e v (.texsType a)) := by
  intro s hs
  have hlod : bitsAt s.op.value a 2 < 4 := Nat.mod_lt _ (by omega)
  have ha : ∀ i lod dc, Asks (match texsBits i lod dc with
      | .error msg => failTok msg
      | .ok b => do
        addBits b
        advance) (fun _ _ _ ks => ks = [] ∧ ∃ b, texsBits i lod dc = .ok b) := by
    intro i lod dc
    cases texsBits i lod dc with
    | error => apply Asks.conv (Asks.failTok _); simp [never]
    | ok x =>
      apply Asks.conv
      · ask
      intro e v k ks _
      sema
      simp
  have hi : ∀ ks, Opens s.ctx.env s.op.value (.texsType a) s.tok.kind ks ↔ ks = [] ∧ ∃ i b, Entry [] texsTypeTable s.tok.kind i ∧
      texsBits i (bitsAt s.op.value a 2) (bitsAt s.op.value (a + 2) 1 == 1) = .ok b := by
    intro ks
    unfold Opens
    simp only [Accepts]
    constructor
    · rintro ⟨rest, k', b, r, rfl, w, x, he, rfl, h⟩
      simp only [List.cons.injEq, List.append_eq_nil_iff] at he
      obtain ⟨i, h1, h2, h3⟩ := (texsCodes_iff hlod).1 ⟨x, h, rfl⟩
      exact ⟨he.2.1, i, _, by rw [he.1]; exact h1, h3⟩
    · rintro ⟨rfl, i, b, ⟨name, hk, h3, h4⟩, hb⟩
      have hne : name ≠ [] := by
        rintro rfl
        exact hs.2 hk
      obtain ⟨x, hx, rfl⟩ := (texsCodes_iff hlod).2 ⟨i, ⟨name, rfl, h3, h4⟩, hne, hb⟩
      exact ⟨[], .vbar, _, 0, rfl, name, x, by rw [hk]; rfl, rfl, hx⟩
  simp only [hi]
  unfold runTexsType
  constructor
  · intro h
    rcases bind_ub h with h | ⟨x, s1, h1, h2⟩
    · exact absurd h (by rcases findInTable_cases true texsTypeTable [] false s with h | ⟨i, x, h, -⟩ | h <;> rw [h] <;> simp)
    cases x with
    | none => simp [failTok] at h2
    | some i =>
      obtain ⟨rfl, he⟩ := findInTable_some.1 h1
      dsimp only at h2
      rw [getValue_bind] at h2
      simp only [lod_iff, dc_iff] at h2
      obtain ⟨ks, hd, rfl, b, hb⟩ := (ha _ _ _ { s1 with op := { s1.op with value := s1.op.value &&& ~~~(7#64 <<< a) } } hs).1 h2
      exact ⟨[], hd, rfl, i, b, he, hb⟩
  · rintro ⟨ks, hd, rfl, i, b, he, hb⟩
    rw [M.bind_def, findInTable_some.2 ⟨rfl, he⟩]
    dsimp only
    rw [getValue_bind]
    simp only [lod_iff, dc_iff]
    exact (ha _ _ _ { s with op := { s.op with value := s.op.value &&& ~~~(7#64 <<< a) } } hs).2 ⟨[], hd, rfl, b, hb⟩

/-- Operands whose beginnings are described. -/
def Operand.askable : Operand → Bool
  | .ccTests _ t => !t.isEmpty
  | .selector _ _ k _ _ => k < 8
  | .abs _ (.gpr _) => true
  | .abs _ .cbuf => true
  | .abs _ _ => false
  | _ => true

/-- An operand parser reads beyond the end of the text exactly when the text ends after the beginning of an operand. -/
theorem ask_operand (o : Operand) (h : o.askable = true) : Asks o.run (fun e v => Opens e v (readsLike o)) := by
  cases o with
  | abs a o =>
    cases o
    case gpr b => exact ask_abs_gpr a b
    case cbuf => exact ask_abs_cbuf a
    all_goals simp [Operand.askable] at h
  | flag => exact ask_flag _ _
  | uint => exact ask_uint _ _
  | sint => exact ask_sint _ _
  | dotTable => exact ask_dotTable _ _ _
  | uimmExtended => exact ask_uimmExtended
  | comma => exact ask_comma
  | label => exact ask_label
  | gpr => exact ask_gpr _
  | cbuf => exact ask_cbuf
  | imm20 => exact ask_imm20
  | fimm => exact ask_fimm _
  | dimm20 => exact ask_dimm20
  | himm => exact ask_himm _ _ _
  | bop => exact ask_bop _
  | pred => exact ask_pred _ _
  | invertedPred => exact ask_invertedPred _
  | neg => exact ask_neg _
  | tilde => exact ask_tilde _
  | po => exact ask_po _ _
  | defaultRz => exact ask_defaultRz _
  | memAddress => exact ask_memAddress _ _ _ _
  | ccTests => exact ask_ccTests _ _ (by simpa [Operand.askable] using h)
  | expect => exact ask_expect _ _ _
  | optText => exact ask_optText _
  | immAttr => exact ask_immAttr
  | patchAttr => exact ask_patchAttr
  | physAttr => exact ask_physAttr
  | xmadSigns => exact ask_xmadSigns
  | f2fRounding => exact ask_f2fRounding
  | intFormat => exact ask_intFormat _ _ _ _
  | plainTable => exact ask_plainTable _ _
  | selector => exact ask_selector _ _ _ _ _ (by simpa [Operand.askable] using h)
  | ldcAddress => exact ask_ldcAddress
  | s2r => exact ask_s2r _
  | ldgSize => exact ask_ldgSize
  | atomicSize => exact ask_atomicSize _
  | srcFormat => exact ask_srcFormat _ _
  | immFormat => exact ask_immFormat _
  | texType => exact ask_texType _
  | zero => exact ask_zero
  | texsMode => exact ask_texsMode _
  | texsSwizzle => exact ask_texsSwizzle
  | mirrorGpr => exact ask_mirrorGpr _
  | tldsType => exact ask_tldsType _
  | texsType => exact ask_texsType _

theorem table_askable : ∀ i ∈ insnTable, ∀ o ∈ i.operands, o.askable = true := by
  have : (insnTable.all fun i => i.operands.all fun o => o.askable) = true := by decide +kernel
  simpa using this

end Nxas
