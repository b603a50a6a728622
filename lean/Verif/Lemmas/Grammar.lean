import Verif.Lemmas.Bits
/-
Every operand parser, in a build without assertions, accepts exactly what the grammar says and has
exactly the effect it says.
-/

set_option maxRecDepth 2000

namespace Nxas

open Spec

theorem or_zero64 (x : BitVec 64) : x ||| 0 = x := by simp
theorem or_zero32 (x : BitVec 32) : x ||| 0 = x := by simp
theorem zero_or64 (x : BitVec 64) : 0 ||| x = x := by simp
theorem zero_or32 (x : BitVec 32) : 0 ||| x = x := by simp

theorem den_flag (x : Str) (a : Nat) : Den (runFlag x a) (fun e v _ => Accepts e v (.flag x a)) := by
  unfold runFlag
  apply Den.conv
  · den
  intro e v u ks k b r _ _
  sem
  simp only [Accepts, optWord]
  grind [List.headD]

theorem den_uint (m : Int) (a : Nat) : Den (runUint m a)
    (fun e v _ => Accepts e v (.uint m a)) := by
  unfold runUint
  apply Den.conv
  · den
  intro e v u ks k b r _ _
  sem
  constructor
  · rintro ⟨x, ⟨h1, h2, h3⟩, _, rfl, rfl, rfl, k0, rfl⟩
    obtain ⟨n, rfl⟩ := Int.eq_ofNat_of_zero_le h2
    exact ⟨rfl, n, by simpa using h1, h3, by rw [u64_shl h2]; simp⟩
  · rintro ⟨rfl, x, rfl, h, rfl⟩
    exact ⟨x, ⟨rfl, by omega, h⟩, 0, by rw [u64_shl (by omega)]; simp, rfl, rfl, _, rfl⟩

theorem den_sint (w a : Nat) : Den (runSint w a)
    (fun e v _ => Accepts e v (.sint w a)) := by
  unfold runSint
  apply Den.conv
  · den
  intro e v u ks k b r _ _
  sem
  simp only [mask_shl]
  constructor
  · rintro ⟨x, ⟨h1, h2, h3⟩, _, rfl, rfl, rfl, k0, rfl⟩
    exact ⟨rfl, x, by simpa using h1, h2, by omega, by simp⟩
  · rintro ⟨rfl, x, rfl, h1, h2, rfl⟩
    exact ⟨x, ⟨rfl, h1, by omega⟩, 0, by simp, rfl, rfl, _, rfl⟩

theorem den_dotTable (d : Option Nat) (a : Nat) (t : List Str) : Den (runDotTable d a t)
    (fun _ _ _ => modifier d a t) := by
  unfold runDotTable
  cases d with
  | none =>
    apply Den.conv
    · den
    intro e v u ks k b r _ _
    sem
    simp only [modifier]
    grind [List.headD]
  | some d =>
    apply Den.conv
    · den
    intro e v u ks k b r _ _
    sem
    simp only [modifier]
    grind [List.headD]

theorem den_tryReuse (a : Nat) : Den (tryReuse a)
    (fun _ _ _ ks k b r => b = 0 ∧ reuse a ks k r) := by
  unfold tryReuse
  apply Den.conv
  · den
  intro e v u ks k b r _ _
  sem
  simp only [show reuseGpr8 &&& 255#32 = 1#32 from rfl, show reuseGpr20 &&& 255#32 = 2#32 from rfl,
    show reuseGpr39 &&& 255#32 = 4#32 from rfl]
  unfold reuse
  by_cases h8 : a = 8
  · subst h8; simp only [reuseFlag]; grind [List.headD]
  · by_cases h20 : a = 20
    · subst h20; simp only [reuseFlag]; grind [List.headD]
    · by_cases h39 : a = 39
      · subst h39; simp only [reuseFlag]; grind [List.headD]
      · have : reuseFlag a = none := by unfold reuseFlag; split <;> simp_all
        grind [List.headD]

theorem den_gpr (a : Nat) : Den (assembleGpr a) (fun _ _ _ => register a) := by
  unfold assembleGpr
  apply Den.conv
  · apply Den.bind
    · den
    intro x
    apply Den.bind
    · den
    intro _
    apply Den.bind
    · den
    intro _
    exact den_tryReuse a
  intro e v u ks k b r _ _
  sem
  unfold register
  constructor
  · rintro ⟨x, h, _, rfl, k0, ks, rfl, rfl, h'⟩
    exact ⟨x, ks, by simpa using h, by simp, h'⟩
  · rintro ⟨n, rest, rfl, rfl, h⟩
    exact ⟨n, rfl, 0, by simp, _, _, rfl, rfl, h⟩

theorem den_uimmExtended : Den runUimmExtended (fun e v _ => Accepts e v .uimmExtended) := by
  unfold runUimmExtended
  apply Den.conv
  · den
  intro e v u ks k b r _ _
  sem
  simp only [Accepts]
  constructor
  · rintro ⟨x, ⟨h1, h2, h3⟩, ⟨h4, _, rfl, _, rfl, rfl, rfl, k0, rfl⟩ | ⟨h4, _, rfl, rfl, rfl, k0, rfl⟩⟩
    · obtain ⟨n, rfl⟩ := Int.eq_ofNat_of_zero_le h2
      refine ⟨rfl, n, by simpa using h1, by omega, ?_⟩
      rw [if_neg (by omega), u64_shl (by omega), or_zero64]
      rw [show ((n : Int) - 524288).toNat = n - 2 ^ 19 by omega]
    · obtain ⟨n, rfl⟩ := Int.eq_ofNat_of_zero_le h2
      refine ⟨rfl, n, by simpa using h1, by omega, ?_⟩
      rw [if_pos (by omega), u64_shl (by omega), or_zero64]
      rfl
  · rintro ⟨rfl, x, rfl, h, rfl⟩
    refine ⟨x, ⟨rfl, by omega, by omega⟩, ?_⟩
    by_cases hx : x < 2 ^ 19
    · refine .inr ⟨by omega, 0, ?_, rfl, rfl, _, rfl⟩
      rw [if_pos hx, u64_shl (by omega), or_zero64]
      rfl
    · refine .inl ⟨by omega, _, ?_, 0, rfl, rfl, rfl, _, rfl⟩
      rw [if_neg hx, u64_shl (by omega), or_zero64, show ((x : Int) - 524288).toNat = x - 2 ^ 19 by omega]

theorem den_comma : Den runComma (fun e v _ => Accepts e v .comma) := by
  unfold runComma
  apply Den.conv
  · den
  intro e v u ks k b r _ _
  sem
  simp only [Accepts]
  grind [List.headD]

theorem den_cbuf : Den runCbuf (fun e v _ => Accepts e v .cbuf) := by
  unfold runCbuf
  apply Den.conv
  · den
  intro e v u ks k b r _ _
  sem
  simp only [Accepts, cbuf_bits]
  constructor
  · rintro ⟨h0, k0, _, rfl, h1, k1, _, rfl, x, ⟨h2, h3, h4⟩, _, rfl, k2, _, rfl, h5, k3, _, rfl, h6, k4, _, rfl,
      y, ⟨h7, h8, h9⟩, h10, _, rfl, k5, _, rfl, h11, rfl, rfl, k6, rfl⟩
    simp only [List.headD_cons] at h0 h1 h2 h5 h6 h7 h11
    subst h0 h1 h2 h5 h6 h7 h11
    obtain ⟨n, rfl⟩ := Int.eq_ofNat_of_zero_le h3
    have h10' := Int.emod_eq_zero_of_dvd (Int.dvd_of_tmod_eq_zero h10)
    refine ⟨rfl, n, y, rfl, by have : (n : Int) ≤ 31 := h4; omega, h8, by omega, h10', ?_⟩
    rw [u64_shl (by omega), or_zero64]
    rfl
  · rintro ⟨rfl, x, y, rfl, h1, h2, h3, h4, rfl⟩
    refine ⟨rfl, _, _, rfl, rfl, _, _, rfl, x, ⟨rfl, by omega, by show (x : Int) ≤ 31; omega⟩, _, ?_, _, _, rfl, rfl, _, _,
      rfl, rfl, _, _, rfl, y, ⟨rfl, h2, by omega⟩, Int.tmod_eq_zero_of_dvd (Int.dvd_of_emod_eq_zero h4), 0, rfl,
      _, _, rfl, rfl, rfl, rfl, _, rfl⟩
    rw [u64_shl (by omega), or_zero64]
    rfl

theorem den_imm20 : Den runImm20 (fun e v _ => Accepts e v .imm20) := by
  unfold runImm20
  apply Den.conv
  · den
  intro e v u ks k b r _ _
  sem
  simp only [Accepts]
  constructor
  · rintro ⟨x, ⟨h1, h2, h3⟩, _, rfl, _, rfl, rfl, rfl, k0, rfl⟩
    have h3 : x < 2 ^ 19 := by have : x ≤ 2 ^ 19 - 1 := h3; omega
    exact ⟨rfl, x, by simpa using h1, h2, h3, by rw [imm20_bits h2 h3, ite_bit_shl, or_zero64]⟩
  · rintro ⟨rfl, x, rfl, h1, h2, rfl⟩
    exact ⟨x, ⟨rfl, h1, by show x ≤ 2 ^ 19 - 1; omega⟩, _, by rw [imm20_bits h1 h2], _, by rw [ite_bit_shl, or_zero64],
      rfl, rfl, _, rfl⟩

theorem den_bop (a : Nat) : Den (runBop a) (fun e v _ => Accepts e v (.bop a)) := by
  unfold runBop
  apply Den.conv
  · den
  intro e v u ks k b r _ _
  sem
  simp only [Accepts]
  grind [List.headD]

theorem den_pred (a : Nat) (n : Bool) : Den (runPred a n) (fun e v _ => Accepts e v (.pred a n)) := by
  unfold runPred
  apply Den.conv
  · den
  intro e v u ks k b r _ _
  sem
  simp only [Accepts]
  simp only [bit_shl]
  constructor
  · rintro ⟨⟨p, n'⟩, h1, _, rfl, ⟨h2, _, rfl, rfl, rfl, k0, rfl⟩ | ⟨h2, h3, rfl, rfl, k0, rfl⟩⟩
    · exact ⟨rfl, p, n', by simpa using h1, fun _ => h2, by simp⟩
    · simp only [Bool.not_eq_true] at h3
      subst h3
      exact ⟨rfl, p, false, by simpa using h1, by simp, by simp [bit, field_zero]⟩
  · rintro ⟨rfl, p, n', rfl, h, rfl⟩
    refine ⟨(p, n'), rfl, _, rfl, ?_⟩
    cases n with
    | true => exact .inl ⟨rfl, 0, by simp, rfl, rfl, _, rfl⟩
    | false =>
      cases n' with
      | true => simp at h
      | false => exact .inr ⟨by simp, by simp, by simp [bit, field_zero], rfl, _, rfl⟩

theorem den_invertedPred (a : Nat) : Den (runInvertedPred a) (fun e v _ => Accepts e v (.invertedPred a)) := by
  unfold runInvertedPred
  apply Den.conv
  · den
  intro e v u ks k b r hks _
  sem
  simp only [Accepts]
  constructor
  · rintro ⟨⟨p, n⟩, h1, _, rfl, h2, rfl, rfl, k0, rfl⟩
    simp only [List.headD_cons] at h1
    subst h1
    have hp : p ≤ 7 := (hks _ (List.mem_singleton.2 rfl)).1
    simp only [Bool.not_eq_true] at h2
    subst h2
    refine ⟨rfl, p, rfl, ?_⟩
    rw [u64_shl (by dsimp only; omega), or_zero64]
    congr 1
    dsimp only
    omega
  · rintro ⟨rfl, p, rfl, rfl⟩
    have hp : p ≤ 7 := (hks _ (List.mem_singleton.2 rfl)).1
    refine ⟨(p, false), rfl, 0, ?_, by simp, rfl, rfl, _, rfl⟩
    rw [u64_shl (by dsimp only; omega), or_zero64]
    congr 1
    dsimp only
    omega

theorem den_neg (a : Nat) : Den (runSign .minus a) (fun e v _ => Accepts e v (.neg a)) := by
  unfold runSign
  apply Den.conv
  · den
  intro e v u ks k b r _ _
  sem
  simp only [Accepts]
  grind [List.headD]

theorem den_tilde (a : Nat) : Den (runSign .tilde a) (fun e v _ => Accepts e v (.tilde a)) := by
  unfold runSign
  apply Den.conv
  · den
  intro e v u ks k b r _ _
  sem
  simp only [Accepts]
  grind [List.headD]

theorem den_po (a c : Nat) : Den (runPo a c) (fun e v _ => Accepts e v (.po a c)) := by
  unfold runPo
  apply Den.conv
  · den
  intro e v u ks k b r _ _
  sem
  simp only [Accepts, optWord]
  grind [List.headD]

theorem den_defaultRz (a : Nat) : Den (addBits (0xFF#64 <<< a)) (fun e v _ => Accepts e v (.defaultRz a)) := by
  have : field a (255#64).toNat = field a 255 := rfl
  simp only [shl_eq]
  apply Den.conv
  · den
  intro e v u ks k b r _ _
  simp only [Accepts, add]
  grind

theorem den_ccTests (a : Nat) (t : List Str) : Den (runCcTests a t) (fun e v _ => Accepts e v (.ccTests a t)) := by
  unfold runCcTests
  apply Den.conv
  · den
  intro e v u ks k b r _ _
  sem
  simp only [Accepts]
  constructor
  · rintro (⟨h1, k0, _, rfl, _, -, i, h2, k1, _, rfl, rfl, rfl, rfl⟩ | ⟨h1, rfl, rfl, rfl⟩)
    · simp only [List.headD_cons] at h1 h2
      subst h1
      exact ⟨rfl, .inl ⟨k1, i, rfl, h2, rfl⟩⟩
    · exact ⟨rfl, .inr ⟨rfl, by simpa using h1, rfl⟩⟩
  · rintro ⟨rfl, ⟨k, i, rfl, h, rfl⟩ | ⟨rfl, h, rfl⟩⟩
    · have h' := h
      obtain ⟨name, rfl, -⟩ := h'
      exact .inl ⟨rfl, _, _, rfl, _, rfl, i, h, _, _, rfl, rfl, rfl, rfl⟩
    · exact .inr ⟨h, rfl, rfl, rfl⟩

theorem den_optText (x : Str) : Den (runOptText x) (fun e v _ => Accepts e v (.optText x)) := by
  unfold runOptText
  apply Den.conv
  · den
  intro e v u ks k b r _ _
  sem
  simp only [Accepts, optWord]
  grind [List.headD]

theorem den_zero : Den runZero (fun e v _ => Accepts e v .zero) := by
  unfold runZero
  apply Den.conv
  · den
  intro e v u ks k b r _ _
  sem
  simp only [Accepts]
  grind [List.headD]

theorem ex_cons {k : Kind} {ks : List Kind} {p : Kind → List Kind → Prop} :
    (∃ k0 ks', k :: ks = k0 :: ks' ∧ p k0 ks') ↔ p k ks := by
  constructor
  · rintro ⟨_, _, h, hp⟩
    cases h
    exact hp
  · exact fun h => ⟨_, _, rfl, h⟩

theorem ex_nil {p : Kind → List Kind → Prop} :
    (∃ k0 ks', [] = k0 :: ks' ∧ p k0 ks') ↔ False := by simp

theorem ex_entry_cons {pfx w : Str} {t : List Str} {k : Kind} {p : Nat → Prop} :
    (∃ i, Entry pfx (w :: t) k i ∧ p i) ↔ k = .ident (pfx ++ w) ∧ p 0 ∨
      k ≠ .ident (pfx ++ w) ∧ ∃ i, Entry pfx t k i ∧ p (i + 1) := by
  simp only [entry_cons]
  constructor
  · rintro ⟨i, ⟨h, rfl⟩ | ⟨h, j, rfl, hj⟩, hp⟩
    · exact .inl ⟨h, hp⟩
    · exact .inr ⟨h, j, hj, hp⟩
  · rintro (⟨h, hp⟩ | ⟨h, j, hj, hp⟩)
    · exact ⟨0, .inl ⟨h, rfl⟩, hp⟩
    · exact ⟨j + 1, .inr ⟨h, j, rfl, hj⟩, hp⟩

theorem ex_entry_nil {pfx : Str} {k : Kind} {p : Nat → Prop} :
    (∃ i, Entry pfx [] k i ∧ p i) ↔ False := by simp [entry_nil]

theorem den_xmadSigns : Den runXmadSigns (fun e v _ => Accepts e v .xmadSigns) := by
  unfold runXmadSigns
  apply Den.conv
  · den
  intro e v u ks k b r _ _
  sem
  simp only [Accepts]
  rcases ks with _ | ⟨k0, _ | ⟨k1, _ | ⟨k2, ks⟩⟩⟩
  all_goals simp only [ex_cons, ex_nil, ex_entry_cons, ex_entry_nil]
  all_goals simp [Kind.equal, bit, field_zero]
  all_goals try grind (splits := 40)
  by_cases h0 : k0 = .ident c!".S16" <;> by_cases h1 : k1 = .ident c!".S16" <;> simp [h0, h1] <;> grind

theorem den_intFormat (u s : List Str) (a c : Nat) : Den (runIntFormat u s a c)
    (fun e v _ => Accepts e v (.intFormat u s a c)) := by
  unfold runIntFormat
  apply Den.conv
  · den
  intro e v u ks k b r _ _
  sem
  simp only [Accepts]
  grind [List.headD]

theorem den_plainTable (a : Nat) (t : List Str) : Den (runPlainTable a t)
    (fun e v _ => Accepts e v (.plainTable a t)) := by
  unfold runPlainTable
  apply Den.conv
  · den
  intro e v u ks k b r _ _
  sem
  simp only [Accepts]
  grind [List.headD]

theorem den_s2r (t : List Str) : Den (runS2r t)
    (fun e v _ => Accepts e v (.s2r t)) := by
  unfold runS2r
  apply Den.conv
  · den
  intro e v u ks k b r _ _
  sem
  simp only [Accepts]
  rcases ks with _ | ⟨k0, _ | ⟨k1, _ | ⟨k2, ks⟩⟩⟩
  all_goals simp only [ex_cons, ex_nil, ex_entry_cons, ex_entry_nil]
  all_goals simp [noEntry_cons, noEntry_nil, bit, field_zero, ex_entry_cons, ex_entry_nil, or_and_right, exists_or,
    and_assoc, equal_iff, not_equal_iff]
  all_goals grind (splits := 40)

theorem den_ldgSize : Den runLdgSize
    (fun e v _ => Accepts e v .ldgSize) := by
  unfold runLdgSize
  apply Den.conv
  · den
  intro e v u ks k b r _ _
  sem
  simp only [Accepts]
  rcases ks with _ | ⟨k0, _ | ⟨k1, _ | ⟨k2, ks⟩⟩⟩
  all_goals simp only [ex_cons, ex_nil, ex_entry_cons, ex_entry_nil]
  all_goals simp [noEntry_cons, noEntry_nil, bit, field_zero, ex_entry_cons, ex_entry_nil, or_and_right, exists_or,
    and_assoc, equal_iff, not_equal_iff]
  all_goals try grind (splits := 40)
  have : (∀ text : Str, k = .ident text → ¬ List.take 1 text = ['.']) ↔
      ∀ text : Str, k = .ident text → ¬ text.head? = some '.' := by
    constructor
    all_goals intro h text hk hc
    all_goals refine h text hk ?_
    all_goals cases text <;> simp_all
  rw [this]
  grind

theorem den_atomicSize (a : Nat) : Den (runAtomicSize a)
    (fun e v _ => Accepts e v (.atomicSize a)) := by
  unfold runAtomicSize
  apply Den.conv
  · den
  intro e v u ks k b r _ _
  sem
  simp only [Accepts]
  rcases ks with _ | ⟨k0, _ | ⟨k1, _ | ⟨k2, ks⟩⟩⟩
  all_goals simp only [ex_cons, ex_nil, ex_entry_cons, ex_entry_nil]
  all_goals simp [noEntry_cons, noEntry_nil, bit, field_zero, ex_entry_cons, ex_entry_nil, or_and_right, exists_or,
    and_assoc, equal_iff, not_equal_iff]
  all_goals grind (splits := 40)

theorem den_srcFormat (a c : Nat) : Den (runSrcFormat a c)
    (fun e v _ => Accepts e v (.srcFormat a c)) := by
  unfold runSrcFormat
  apply Den.conv
  · den
  intro e v u ks k b r _ _
  sem
  simp only [Accepts]
  rcases ks with _ | ⟨k0, _ | ⟨k1, _ | ⟨k2, ks⟩⟩⟩
  all_goals simp only [ex_cons, ex_nil, ex_entry_cons, ex_entry_nil]
  all_goals simp [noEntry_cons, noEntry_nil, bit, field_zero, ex_entry_cons, ex_entry_nil, or_and_right, exists_or,
    and_assoc, equal_iff, not_equal_iff]
  all_goals grind (splits := 40)

theorem den_texType (a : Nat) : Den (runTexType a)
    (fun e v _ => Accepts e v (.texType a)) := by
  unfold runTexType
  apply Den.conv
  · den
  intro e v u ks k b r _ _
  sem
  simp only [Accepts]
  grind [List.headD]

theorem texsMode_flat {a : Nat} {ks : List Kind} {k' : Kind} {b : BitVec 64} :
    (∃ lod dc x y, ks = lod ++ dc ∧ b = field a (x + y) ∧
      ((lod = [.ident c!".LZ"] ∧ x = 2) ∨ (lod = [.ident c!".LL"] ∧ x = 1) ∨
        (lod = [] ∧ dc.headD k' ≠ .ident c!".LZ" ∧ dc.headD k' ≠ .ident c!".LL" ∧ x = 0)) ∧
      ((dc = [.ident c!".DC"] ∧ y = 4) ∨ (dc = [] ∧ k' ≠ .ident c!".DC" ∧ y = 0))) ↔
    (ks = [.ident c!".LZ", .ident c!".DC"] ∧ b = field a 6) ∨
    (ks = [.ident c!".LL", .ident c!".DC"] ∧ b = field a 5) ∨
    (ks = [.ident c!".DC"] ∧ b = field a 4) ∨
    (ks = [.ident c!".LZ"] ∧ k' ≠ .ident c!".DC" ∧ b = field a 2) ∨
    (ks = [.ident c!".LL"] ∧ k' ≠ .ident c!".DC" ∧ b = field a 1) ∨
    (ks = [] ∧ k' ≠ .ident c!".LZ" ∧ k' ≠ .ident c!".LL" ∧ k' ≠ .ident c!".DC" ∧ b = field a 0) := by
  constructor
  · rintro ⟨lod, dc, x, y, rfl, rfl, (⟨rfl, rfl⟩ | ⟨rfl, rfl⟩ | ⟨rfl, h1, h2, rfl⟩), (⟨rfl, rfl⟩ | ⟨rfl, h3, rfl⟩)⟩
    all_goals simp_all
  · rintro (⟨rfl, rfl⟩ | ⟨rfl, rfl⟩ | ⟨rfl, rfl⟩ | ⟨rfl, h, rfl⟩ | ⟨rfl, h, rfl⟩ | ⟨rfl, h1, h2, h, rfl⟩)
    · exact ⟨[.ident c!".LZ"], [.ident c!".DC"], 2, 4, by simp⟩
    · exact ⟨[.ident c!".LL"], [.ident c!".DC"], 1, 4, by simp⟩
    · exact ⟨[], [.ident c!".DC"], 0, 4, by simp⟩
    · exact ⟨[.ident c!".LZ"], [], 2, 0, by simp [h]⟩
    · exact ⟨[.ident c!".LL"], [], 1, 0, by simp [h]⟩
    · exact ⟨[], [], 0, 0, by simp [h, h1, h2]⟩

theorem den_texsMode (a : Nat) : Den (runTexsMode a)
    (fun e v _ => Accepts e v (.texsMode a)) := by
  unfold runTexsMode
  apply Den.conv
  · den
  intro e v u ks k b r _ _
  sem
  simp only [Accepts]
  rw [texsMode_flat]
  rcases ks with _ | ⟨k0, _ | ⟨k1, _ | ⟨k2, ks⟩⟩⟩
  all_goals simp only [ex_cons, ex_nil, ex_entry_cons, ex_entry_nil]
  all_goals simp [field_eq, field_zero]
  all_goals grind (splits := 40)

theorem swizzle_cond (v : BitVec 64) : (v >>> 28 &&& 255#64 = 255#64) ↔ bitsAt v 28 8 = 255 := by
  rw [← bitsAt_mask v 28 8 (by omega), ← BitVec.toNat_inj]
  rfl

theorem den_texsSwizzle : Den runTexsSwizzle (fun e v _ => Accepts e v .texsSwizzle) := by
  unfold runTexsSwizzle
  apply Den.conv
  · den
  intro e v u ks k b r _ _
  sem
  simp only [Accepts, swizzle_cond]
  change (∃ i, Entry [] (if bitsAt v 28 8 = 255 then swizzleSingle else swizzleDouble) (ks.headD k) i ∧ _) ↔
    r = 0 ∧ ∃ k i, _ ∧ _ ∧ Entry [] (if bitsAt v 28 8 = 255 then swizzleSingle else swizzleDouble) k i
  generalize (if bitsAt v 28 8 = 255 then swizzleSingle else swizzleDouble) = t
  constructor
  · rintro ⟨i, h, _, rfl, rfl, rfl, k0, rfl⟩
    exact ⟨rfl, k0, i, rfl, by simp, h⟩
  · rintro ⟨rfl, k0, i, rfl, rfl, h⟩
    exact ⟨i, h, 0, by simp, rfl, rfl, _, rfl⟩

/-- The meaning of a computation that begins by looking at the token. -/
def byKind (P : Kind → Sem α) : Sem α := fun e v a ks k b r => P (ks.headD k) e v a ks k b r

theorem Den.byKind {f : Kind → M α} {P : Kind → Sem α} (h : ∀ k, Den (f k) (P k)) :
    Den (Nxas.getKind >>= f) (byKind P) := by
  apply Den.conv
  · apply Den.bind Den.getKind h
  · intro e v u ks k b r _ _
    rw [seq_still]
    simp [Nxas.byKind]

theorem seq_byKind {P : Kind → Sem α} {Q : α → Sem β} {e : Env} {v b : BitVec 64} {a : β} {ks : List Kind} {k : Kind}
    {r : BitVec 32} : seq (byKind P) Q e v a ks k b r ↔ seq (P (ks.headD k)) Q e v a ks k b r := by
  constructor
  · rintro ⟨x, ks1, ks2, b1, b2, r1, r2, h1, h2, rfl, rfl, rfl⟩
    refine ⟨x, ks1, ks2, b1, b2, r1, r2, ?_, h2, rfl, rfl, rfl⟩
    cases ks1 <;> simpa [byKind] using h1
  · rintro ⟨x, ks1, ks2, b1, b2, r1, r2, h1, h2, rfl, rfl, rfl⟩
    refine ⟨x, ks1, ks2, b1, b2, r1, r2, ?_, h2, rfl, rfl, rfl⟩
    cases ks1 <;> simpa [byKind] using h1

/-! ### Labels -/

/-- A displacement to an absolute target. -/
def target (x : Int) : Sem Unit := fun e _ _ ks _ b r => r = 0 ∧ (∃ k0, ks = [k0]) ∧
  -(2 ^ 23) ≤ x - e.pc - 8 ∧ x - e.pc - 8 < 2 ^ 23 ∧ b = sfield 20 24 (x - e.pc - 8)

theorem den_labelTarget (x : Int) : Den (runLabelTarget x) (target x) := by
  unfold runLabelTarget
  apply Den.conv
  · apply Den.getCtx (P := fun e => alt (x - e.pc - 8 < -(2 ^ 63)) bot
      (alt (x - e.pc - 8 > 2 ^ 23 - 1 ∨ x - e.pc - 8 < -(2 ^ 23)) bot
        (seq (add ((u64 (x - e.pc - 8) &&& 0x7FFFFF#64) <<< 20)) fun _ =>
          seq (add ((if x - e.pc - 8 < 0 then 1#64 else 0#64) <<< 43)) fun _ => adv)))
    intro c
    exact Den.ite (Den.ubM _) (Den.ite (Den.failTok _) (Den.bind (Den.addBits _) fun _ =>
      Den.bind (Den.addBits _) fun _ => Den.advance))
  intro e v u ks k b r _ _
  sem
  unfold target
  generalize x - e.pc - 8 = y
  constructor
  · rintro ⟨h1, h2, _, rfl, _, rfl, rfl, rfl, k0, rfl⟩
    refine ⟨rfl, ⟨_, rfl⟩, by omega, by omega, ?_⟩
    rw [← label_bits (by omega) (by omega)]
    simp
  · rintro ⟨rfl, ⟨k0, rfl⟩, h1, h2, rfl⟩
    refine ⟨by omega, by omega, _, ?_, 0, rfl, rfl, rfl, _, rfl⟩
    rw [← label_bits (by omega) (by omega)]
    simp

theorem den_label : Den runLabel (fun e v _ => Accepts e v .label) := by
  unfold runLabel
  apply Den.conv
  · apply Den.byKind (P := fun t e v u ks k b r => (∃ s a, t = .ident s ∧ e.label s = some a ∧ target a e v u ks k b r) ∨
      ∃ x, t = .imm x ∧ target x e v u ks k b r)
    intro t
    cases t
    case ident x =>
      apply Den.conv
      · apply Den.getCtx (P := fun e0 e v u ks k b r => ∃ a, e0.label x = some a ∧ target a e v u ks k b r)
        intro c
        change Den (match c.env.label x with | none => _ | some a => _) _
        cases hl : c.env.label x with
        | none =>
          apply Den.conv (Den.failTok _)
          simp [bot]
        | some a =>
          apply Den.conv (den_labelTarget a)
          simp
      · intro e v u ks k b r _ _
        simp
    case imm x =>
      apply Den.conv (den_labelTarget x)
      intro e v u ks k b r _ _
      simp
    all_goals
      apply Den.conv (Den.failTok _)
      simp [bot]
  intro e v u ks k b r _ _
  simp only [byKind, Accepts, target]
  constructor
  · rintro (⟨s, a, h1, h2, rfl, ⟨k0, rfl⟩, h3, h4, h5⟩ | ⟨x, h1, rfl, ⟨k0, rfl⟩, h3, h4, h5⟩)
    · exact ⟨rfl, a, .inl ⟨s, a, by simpa using h1, h2, rfl⟩, h3, h4, h5⟩
    · exact ⟨rfl, x, .inr (by simpa using h1), h3, h4, h5⟩
  · rintro ⟨rfl, x, ⟨s, a, rfl, h2, rfl⟩ | rfl, h3, h4, h5⟩
    · exact .inl ⟨s, a, rfl, h2, rfl, ⟨_, rfl⟩, h3, h4, h5⟩
    · exact .inr ⟨x, rfl, rfl, ⟨_, rfl⟩, h3, h4, h5⟩

/-! ### Floating point immediates -/

theorem den_floatKeyword (q i : BitVec n) : Den (floatKeyword q i) (still fun _ _ x k => floatWord q i k x) := by
  unfold floatKeyword
  apply Den.conv
  · den
  intro e v u ks k b r _ _
  sem
  unfold floatWord
  cases ks with
  | nil => simp; grind
  | cons => simp

/-- A given result and given bits. -/
def gives (x0 : α) (b0 : BitVec 64) : Sem α := fun _ _ x ks _ b r => ks = [] ∧ x = x0 ∧ b = b0 ∧ r = 0

/-- A sign and a keyword. -/
def signed (q i : BitVec n) (N : BitVec n → BitVec n) (b0 : BitVec 64) : Sem (BitVec n) := fun _ _ x ks k b r =>
  (∃ k0, ks = [k0]) ∧ (∃ y, floatWord q i k y ∧ x = N y) ∧ b = b0 ∧ r = 0

/-- The value of a floating point operand, up to the last token. -/
def floatSem (q i : BitVec n) (oF : BitVec 32 → BitVec n) (oI : Int → BitVec n) (bF : BitVec 32 → BitVec 64)
    (bI : Int → BitVec 64) (N : BitVec n → BitVec n) (bM : BitVec 64) :
    Kind → Sem (BitVec n)
  | .fimm f => gives (oF f) (bF f)
  | .imm v => gives (oI v) (bI v)
  | .plus => signed q i id 0
  | .minus => signed q i N bM
  | .ident _ => still fun _ _ x k => floatWord q i k x
  | _ => bot

/-- The bits for the sign of a literal. -/
def litBits (bF : BitVec 32 → BitVec 64) (bI : Int → BitVec 64) : List Kind → BitVec 64
  | [.fimm f] => bF f
  | [.imm v] => bI v
  | _ => 0

/-- Adding bits and reading the token. -/
def lastTok (x : BitVec 64) : Sem Unit := fun _ _ _ ks _ b r => r = 0 ∧ (∃ k0, ks = [k0]) ∧ b = x

theorem gives_still (x0 : α) : (still fun _ _ x _ => x = x0) = gives x0 0 := by
  funext e v x ks k b r
  simp only [still, gives, eq_iff_iff]
  grind

theorem signed_plus (q i : BitVec n) : (seq adv fun _ => still fun _ _ x k => floatWord q i k x) = signed q i id 0 := by
  funext e v x ks k b r
  sem
  simp only [signed, eq_iff_iff, id]
  grind [List.headD]

theorem floatWord_ident {q i x : BitVec n} {k : Kind} : floatWord q i k x ↔ (∃ s, k = .ident s) ∧ floatWord q i k x := by
  unfold floatWord
  constructor
  · intro h
    refine ⟨?_, h⟩
    rcases h with ⟨rfl, -⟩ | ⟨rfl, -⟩ <;> exact ⟨_, rfl⟩
  · exact fun h => h.2

theorem floatSem_flat {q i : BitVec n} {oF : BitVec 32 → BitVec n} {oI : Int → BitVec n} {bF : BitVec 32 → BitVec 64}
    {bI : Int → BitVec 64} {N : BitVec n → BitVec n} {bM : BitVec 64} {W : BitVec n → BitVec 64} {e : Env}
    {v b : BitVec 64} {u : Unit} {ks : List Kind} {k : Kind} {r : BitVec 32} :
    seq (byKind (floatSem q i oF oI bF bI N bM)) (fun x => lastTok (W x)) e v u ks k b r ↔
    r = 0 ∧ ∃ neg x, FloatText n oF oI q i ks neg x ∧
      b = litBits bF bI ks ||| (if neg = true then bM else 0) ||| W (if neg = true then N x else x) := by
  constructor
  · rintro ⟨x, ks1, ks2, b1, b2, r1, r2, h1, ⟨rfl, ⟨k0, rfl⟩, rfl⟩, rfl, rfl, rfl⟩
    unfold byKind at h1
    cases hk : ks1.headD ([k0].headD k) <;> rw [hk] at h1
    case fimm f =>
      obtain ⟨rfl, rfl, rfl, rfl⟩ := h1
      simp only [List.headD_nil, List.headD_cons] at hk
      subst hk
      exact ⟨by simp, false, _, .float, by simp [litBits]⟩
    case imm f =>
      obtain ⟨rfl, rfl, rfl, rfl⟩ := h1
      simp only [List.headD_nil, List.headD_cons] at hk
      subst hk
      exact ⟨by simp, false, _, .int, by simp [litBits]⟩
    case plus =>
      obtain ⟨⟨k1, rfl⟩, ⟨y, hy, rfl⟩, rfl, rfl⟩ := h1
      simp only [List.headD_cons] at hk hy
      subst hk
      exact ⟨by simp, false, _, .plus hy, by simp [litBits]⟩
    case minus =>
      obtain ⟨⟨k1, rfl⟩, ⟨y, hy, rfl⟩, rfl, rfl⟩ := h1
      simp only [List.headD_cons] at hk hy
      subst hk
      exact ⟨by simp, true, _, .minus hy, by simp [litBits]⟩
    case ident =>
      obtain ⟨rfl, rfl, rfl, h⟩ := h1
      simp only [List.headD_nil, List.headD_cons] at hk h
      subst hk
      exact ⟨by simp, false, _, .word h, by simp [litBits]⟩
    all_goals exact h1.elim
  · rintro ⟨rfl, neg, x, h, rfl⟩
    cases h with
    | @float f => exact ⟨_, [], [.fimm f], _, _, 0, 0, ⟨rfl, rfl, rfl, rfl⟩, ⟨rfl, ⟨_, rfl⟩, rfl⟩, rfl, by simp [litBits], by simp⟩
    | @int x => exact ⟨_, [], [.imm x], _, _, 0, 0, ⟨rfl, rfl, rfl, rfl⟩, ⟨rfl, ⟨_, rfl⟩, rfl⟩, rfl, by simp [litBits], by simp⟩
    | word h =>
      refine ⟨x, [], _, 0, _, 0, 0, ?_, ⟨rfl, ⟨_, rfl⟩, rfl⟩, rfl, ?_, by simp⟩
      · obtain ⟨⟨s, rfl⟩, h⟩ := floatWord_ident.1 h
        exact ⟨rfl, rfl, rfl, h⟩
      · obtain ⟨⟨s, rfl⟩, h⟩ := floatWord_ident.1 h
        simp [litBits]
    | @plus k0 _ h => exact ⟨_, [.plus], [k0], _, _, 0, 0, ⟨⟨_, rfl⟩, ⟨_, h, rfl⟩, rfl, rfl⟩, ⟨rfl, ⟨_, rfl⟩, rfl⟩, rfl,
        by simp [litBits], by simp⟩
    | @minus k0 _ h => exact ⟨_, [.minus], [k0], _, _, 0, 0, ⟨⟨_, rfl⟩, ⟨_, h, rfl⟩, rfl, rfl⟩, ⟨rfl, ⟨_, rfl⟩, rfl⟩, rfl,
        by simp [litBits], by simp⟩

theorem den_floatValue : Den floatValue (byKind (floatSem f32QNaN f32Inf id f32OfInt (fun _ => 0) (fun _ => 0)
    (· ^^^ 0x80000000#32) 0)) := by
  unfold floatValue
  apply Den.byKind
  intro t
  cases t <;> dsimp only [floatSem]
  case plus => rw [← signed_plus]; exact Den.bind Den.advance fun _ => den_floatKeyword _ _
  case minus =>
    apply Den.conv
    · exact Den.bind Den.advance fun _ => Den.bind (den_floatKeyword _ _) fun _ => Den.pure _
    · intro e v u ks k b r _ _
      sem
      simp only [signed]
      grind [List.headD]
  case ident => exact den_floatKeyword _ _
  case fimm => rw [← gives_still]; exact Den.pure _
  case imm => rw [← gives_still]; simp only [ne_eq, not_true, if_false]; exact Den.pure _
  all_goals exact Den.failTok _

/-- The bits of the value of a single precision operand. -/
theorem fimm_word (wide : Bool) (x : BitVec 32) (neg : Bool) :
    (if wide = true then (x ^^^ (if neg then 0x80000000#32 else 0)).setWidth 64 <<< 20 else
      ((((x ^^^ (if neg then 0x80000000#32 else 0)) <<< 1) >>> 13).setWidth 64) <<< 20 |||
        (if (x ^^^ (if neg then 0x80000000#32 else 0)) >>> 31 ≠ 0#32 then 1#64 <<< 56 else 0)) =
    if wide then field 20 (x.toNat ^^^ (2 ^ 31 * bit neg))
      else field 20 (x.toNat / 2 ^ 12 % 2 ^ 19) ||| field 56 (x.toNat / 2 ^ 31 ^^^ bit neg) := by
  have hx : (x ^^^ (if neg = true then 0x80000000#32 else 0)).toNat = x.toNat ^^^ (2 ^ 31 * bit neg) := by
    cases neg <;> simp [bit]
  cases wide with
  | true =>
    simp only [if_true]
    rw [shl_eq, BitVec.toNat_setWidth, hx]
    apply field_mod
    have : x.toNat ^^^ (2 ^ 31 * bit neg) < 2 ^ 32 := by rw [← hx]; exact BitVec.isLt _
    omega
  | false =>
    simp only [Bool.false_eq_true, if_false]
    rw [fimm_bits, hx]
    have h1 : (x.toNat ^^^ (2 ^ 31 * bit neg)) / 2 ^ 12 % 2 ^ 19 = x.toNat / 2 ^ 12 % 2 ^ 19 := by
      rw [← Nat.shiftRight_eq_div_pow, Nat.shiftRight_xor_distrib, ← Nat.and_two_pow_sub_one_eq_mod,
        Nat.and_xor_distrib_right, ← Nat.shiftRight_eq_div_pow, ← Nat.and_two_pow_sub_one_eq_mod]
      cases neg <;> simp [bit]
    have h2 : (x.toNat ^^^ (2 ^ 31 * bit neg)) / 2 ^ 31 = x.toNat / 2 ^ 31 ^^^ bit neg := by
      rw [← Nat.shiftRight_eq_div_pow, Nat.shiftRight_xor_distrib, ← Nat.shiftRight_eq_div_pow]
      cases neg <;> simp [bit]
    simp only [h1, fimm_sign, hx, h2]
    congr 1
    have hlt : x.toNat / 2 ^ 31 < 2 := by have := x.isLt; omega
    have : x.toNat / 2 ^ 31 = 0 ∨ x.toNat / 2 ^ 31 = 1 := by omega
    rcases this with h | h <;> rw [h] <;> cases neg <;> simp [bit, shl_eq, field_zero]

/-- The bits written for a single precision value. -/
def fimmWord (wide : Bool) (x : BitVec 32) : BitVec 64 :=
  if wide then x.setWidth 64 <<< 20 else (((x <<< 1) >>> 13).setWidth 64) <<< 20 |||
    (if x >>> 31 ≠ 0#32 then 1#64 <<< 56 else 0)

theorem den_fimm (wide : Bool) : Den (runFimm wide) (fun e v _ => Accepts e v (.fimm wide)) := by
  unfold runFimm
  apply Den.conv
  · apply Den.bind den_floatValue (Q := fun x => lastTok (fimmWord wide x))
    intro x
    apply Den.conv
    · den
    intro e v u ks k b r _ _
    sem
    unfold lastTok fimmWord
    cases wide <;> by_cases h : x >>> 31 = 0#32 <;> simp [h, field_eq]
    all_goals grind
  intro e v u ks k b r _ _
  rw [floatSem_flat]
  have hW : ∀ (x : BitVec 32) (neg : Bool), litBits (fun _ => 0) (fun _ => 0) ks ||| (if neg = true then 0 else 0) |||
      fimmWord wide (if neg = true then x ^^^ 0x80000000#32 else x) =
      if wide then field 20 (x.toNat ^^^ (2 ^ 31 * bit neg))
      else field 20 (x.toNat / 2 ^ 12 % 2 ^ 19) ||| field 56 (x.toNat / 2 ^ 31 ^^^ bit neg) := by
    intro x neg
    rw [← fimm_word]
    have : litBits (fun _ => 0) (fun _ => 0) ks = 0 := by unfold litBits; split <;> rfl
    rw [this]
    cases neg <;> simp [fimmWord]
  simp only [hW, Accepts]
  exact Iff.rfl

theorem den_doubleValue : Den doubleValue (byKind (floatSem f64QNaN f64Inf f64OfF32 f64OfInt
    (fun f => if f32LtZero f then 1#64 <<< 56 else 0) (fun v => if v < 0 then 1#64 <<< 56 else 0) id (1#64 <<< 56))) := by
  unfold doubleValue
  apply Den.byKind
  intro t
  cases t <;> dsimp only [floatSem]
  case plus => rw [← signed_plus]; exact Den.bind Den.advance fun _ => den_floatKeyword _ _
  case minus =>
    apply Den.conv
    · exact Den.bind (Den.addBits _) fun _ => Den.bind Den.advance fun _ => den_floatKeyword _ _
    · intro e v u ks k b r _ _
      sem
      simp only [signed, field_eq, id]
      grind [List.headD]
  case ident => exact den_floatKeyword _ _
  case fimm f =>
    apply Den.conv
    · den
    · intro e v u ks k b r _ _
      sem
      simp only [gives]
      by_cases h : f32LtZero f = true <;> simp [h, field_eq] <;> grind
  case imm x =>
    apply Den.conv
    · den
    · intro e v u ks k b r _ _
      sem
      simp only [gives]
      by_cases h : x < 0 <;> simp [h, field_eq] <;> grind
  all_goals exact Den.failTok _

theorem den_dimm20 : Den runDimm20 (fun e v _ => Accepts e v .dimm20) := by
  unfold runDimm20
  apply Den.conv
  · apply Den.bind den_doubleValue (Q := fun x : BitVec 64 => lastTok (((x <<< 1) >>> 45) <<< 20))
    intro x
    apply Den.conv
    · den
    intro e v u ks k b r _ _
    sem
    unfold lastTok
    grind
  intro e v u ks k b r _ _
  rw [floatSem_flat]
  simp only [Accepts]
  refine and_congr Iff.rfl (exists_congr fun neg => exists_congr fun x => ?_)
  refine and_congr_right fun h => ?_
  rw [dimm_bits]
  have hb : (litBits (fun f => if f32LtZero f then 1#64 <<< 56 else 0) (fun v => if v < 0 then 1#64 <<< 56 else 0) ks |||
      if neg = true then 1#64 <<< 56 else 0) = field 56 (bit (neg || literalNegative ks)) := by
    have h1 : litBits (fun f => if f32LtZero f then 1#64 <<< 56 else 0) (fun v => if v < 0 then 1#64 <<< 56 else 0) ks =
        if literalNegative ks = true then 1#64 <<< 56 else 0 := by
      unfold litBits literalNegative
      split <;> simp
    rw [h1]
    cases neg <;> cases literalNegative ks <;> simp [bit, field_zero, shl_eq]
  rw [hb, BitVec.or_comm]
  have hx : (if neg = true then id x else x) = x := by cases neg <;> rfl
  rw [hx]

/-- The bit of the sign. -/
def negBits (negBit : Option Nat) : BitVec 64 :=
  match negBit with
  | some n => 1#64 <<< n
  | none => 0

theorem den_addNegBit (negBit : Option Nat) : Den (addNegBit negBit) (add (negBits negBit)) := by
  cases negBit with
  | none =>
    apply Den.conv (Den.pure _)
    intro e v u ks k b r _ _
    simp [add, still, negBits]
  | some n => exact Den.addBits _

theorem den_halfValue (negBit : Option Nat) : Den (halfValue negBit) (byKind (floatSem 0x7FFF#16 0x7C00#16 fp32ToFp16
    (fun v => fp32ToFp16 (f32OfInt v))
    (fun f => if f32LtZero f then negBits negBit else 0) (fun v => if v < 0 then negBits negBit else 0)
    (fun b => if negBit.isSome then b else b ||| 0x8000#16) (negBits negBit))) := by
  unfold halfValue
  apply Den.byKind
  intro t
  cases t <;> dsimp only [floatSem]
  case plus => rw [← signed_plus]; exact Den.bind Den.advance fun _ => den_floatKeyword _ _
  case minus =>
    apply Den.conv
    · exact Den.bind Den.advance fun _ => Den.bind (den_floatKeyword _ _) fun _ => Den.bind (den_addNegBit _) fun _ =>
        Den.pure _
    · intro e v u ks k b r _ _
      sem
      simp only [signed]
      grind [List.headD]
  case ident => exact den_floatKeyword _ _
  case fimm f =>
    apply Den.conv
    · exact Den.ite (Den.bind (den_addNegBit _) fun _ => Den.pure _) (Den.bind (Den.pure _) fun _ => Den.pure _)
    · intro e v u ks k b r _ _
      sem
      simp only [gives]
      by_cases h : f32LtZero f = true <;> simp [h] <;> grind
  case imm x =>
    apply Den.conv
    · exact Den.ite (Den.bind (den_addNegBit _) fun _ => Den.pure _) (Den.bind (Den.pure _) fun _ => Den.pure _)
    · intro e v u ks k b r _ _
      sem
      simp only [gives]
      by_cases h : x < 0 <;> simp [h] <;> grind
  all_goals exact Den.failTok _

/-- The bits written for a half precision value. -/
def himmWord (wide : Bool) (offset : Nat) (x : BitVec 16) : BitVec 64 :=
  if wide then x.setWidth 64 <<< offset else (((x <<< 1) >>> 7).setWidth 64) <<< offset

theorem himm_word (wide : Bool) (offset : Nat) (x : BitVec 16) : himmWord wide offset x =
    if wide then field offset x.toNat else field offset (x.toNat / 2 ^ 6 % 2 ^ 9) := by
  unfold himmWord
  cases wide with
  | true =>
    simp only [if_true]
    rw [shl_eq, BitVec.toNat_setWidth]
    apply field_mod
    omega
  | false =>
    simp only [Bool.false_eq_true, if_false]
    rw [himm_bits]

theorem den_himm (wide : Bool) (offset : Nat) (negBit : Option Nat) : Den (runHimm wide offset negBit)
    (fun e v _ => Accepts e v (.himm wide offset negBit)) := by
  unfold runHimm
  apply Den.conv
  · apply Den.bind (den_halfValue _) (Q := fun x => lastTok (himmWord wide offset x))
    intro x
    apply Den.conv
    · den
    intro e v u ks k b r _ _
    sem
    unfold lastTok himmWord
    cases wide <;> simp [field_eq]
    all_goals grind
  intro e v u ks k b r _ _
  rw [floatSem_flat]
  simp only [Accepts]
  refine and_congr Iff.rfl (exists_congr fun neg => exists_congr fun x => ?_)
  refine and_congr_right fun h => ?_
  have hb : (litBits (fun f => if f32LtZero f then negBits negBit else 0) (fun v => if v < 0 then negBits negBit else 0) ks |||
      if neg = true then negBits negBit else 0) = (match negBit with
        | some n => field n (bit (neg || literalNegative ks))
        | none => 0) := by
    have h1 : litBits (fun f => if f32LtZero f then negBits negBit else 0) (fun v => if v < 0 then negBits negBit else 0) ks =
        if literalNegative ks = true then negBits negBit else 0 := by
      unfold litBits literalNegative
      split <;> simp
    rw [h1]
    cases negBit <;> cases neg <;> cases literalNegative ks <;> simp [bit, field_zero, shl_eq, negBits]
  rw [hb, BitVec.or_comm]
  have hx : himmWord wide offset (if neg = true then (if negBit.isSome = true then x else x ||| 0x8000#16) else x) =
      if wide then field offset (x.toNat + 2 ^ 15 * bit (neg && negBit.isNone))
          else field offset (x.toNat / 2 ^ 6 % 2 ^ 9) := by
    rw [himm_word]
    cases neg with
    | false => simp [bit]
    | true =>
      cases negBit with
      | some n => simp [bit]
      | none =>
        have hxs : x = 0x7FFF#16 ∨ x = 0x7C00#16 := by
          cases h with
          | minus h => rcases h with ⟨-, h⟩ | ⟨-, h⟩ <;> simp [h]
        rcases hxs with rfl | rfl <;> simp [bit]
  rw [hx]
  cases negBit <;> exact Iff.rfl

/-! ### Memory operands -/

theorem mem_bits {v : Int} {addr size shr : Nat} (h : size + shr ≤ 64) :
    ((u64 v >>> shr) &&& BitVec.ofNat 64 (2 ^ size - 1)) <<< addr = sfield addr size (v / 2 ^ shr) := by
  rw [shl_eq, bitsAt_mask _ _ _ (by omega), sfield]
  congr 1
  unfold bitsAt
  rw [u64_emod]
  obtain ⟨d, hd⟩ : ∃ d, 64 = size + shr + d := ⟨64 - (size + shr), by omega⟩
  have hm : (0 : Int) ≤ v % 2 ^ 64 := Int.emod_nonneg _ (by decide)
  obtain ⟨m, hm'⟩ := Int.eq_ofNat_of_zero_le hm
  have hv : v = m + (v / 2 ^ 64) * 2 ^ 64 := by
    rw [← hm', Int.mul_comm]; exact (Int.emod_add_mul_ediv v (2 ^ 64)).symm
  have hp : (2 : Int) ^ 64 = 2 ^ (d + size) * 2 ^ shr := by rw [hd, ← Int.pow_add]; congr 1; omega
  have hs : (0 : Int) < 2 ^ shr := Int.pow_pos (by decide)
  have : v / 2 ^ shr = m / 2 ^ shr + (v / 2 ^ 64) * 2 ^ (d + size) := by
    conv => lhs; rw [hv, hp, ← Int.mul_assoc]
    rw [Int.add_mul_ediv_right _ _ (by omega)]
    rw [hp]
  rw [this, hm', Int.pow_add, ← Int.mul_assoc, Int.add_mul_emod_self_right, Int.toNat_natCast]
  have h1 : ((m / 2 ^ shr % 2 ^ size : Nat) : Int) = (m : Int) / 2 ^ shr % 2 ^ size := by push_cast; rfl
  rw [← h1, Int.toNat_natCast]

theorem Den.assoc {m : M α} {f : α → M β} {g : β → M γ} {P : Sem γ} (h : Den ((m >>= f) >>= g) P) :
    Den (m >>= fun x => f x >>= g) P := by
  intro s hs a s'
  rw [← h s hs]
  simp only [bind_iff]
  constructor
  · rintro ⟨x, s1, h1, y, s2, h2, h3⟩
    exact ⟨y, s2, ⟨x, s1, h1, h2⟩, h3⟩
  · rintro ⟨y, s2, ⟨x, s1, h1, h2⟩, h3⟩
    exact ⟨x, s1, h1, y, s2, h2, h3⟩

/-- The base of a memory operand. -/
def baseSem : Sem Nat := fun _ _ n ks k b r =>
  b = 0 ∧ ((∃ rest, ks = .reg n :: rest ∧ reuse 8 rest k r) ∨ (ks = [] ∧ (∀ m, k ≠ .reg m) ∧ n = 255 ∧ r = 0))

theorem den_base : Den (getKind >>= fun t => match t with
    | .reg n => do
      advance
      tryReuse 8
      M.pure n
    | _ => M.pure 255) baseSem := by
  apply Den.conv
  · apply Den.byKind (P := fun t => match t with
      | .reg n => seq adv fun _ => seq (fun _ _ _ ks k b r => b = 0 ∧ reuse 8 ks k r) fun _ => still fun _ _ a _ => a = n
      | _ => still fun _ _ a _ => a = 255)
    intro t
    cases t <;> dsimp only
    case reg n => exact Den.bind Den.advance fun _ => Den.bind (den_tryReuse _) fun _ => Den.pure _
    all_goals exact Den.pure _
  intro e v n ks k b r _ _
  unfold byKind baseSem
  constructor
  · intro h
    cases hk : ks.headD k <;> rw [hk] at h <;> dsimp only at h
    case reg m =>
      rw [seq_adv] at h
      obtain ⟨k0, ks, rfl, _, ks1, ks2, b1, b2, r1, r2, ⟨rfl, h⟩, ⟨rfl, rfl, rfl, rfl⟩, rfl, rfl, rfl⟩ := h
      simp only [List.headD_cons] at hk
      subst hk
      exact ⟨rfl, .inl ⟨ks1, by simp, by simpa using h⟩⟩
    all_goals
      obtain ⟨rfl, rfl, rfl, rfl⟩ := h
      simp only [List.headD_nil] at hk
      exact ⟨rfl, .inr ⟨rfl, by simp [hk], rfl, rfl⟩⟩
  · rintro ⟨rfl, ⟨rest, rfl, h⟩ | ⟨rfl, h1, rfl, rfl⟩⟩
    · simp only [List.headD_cons]
      rw [seq_adv]
      exact ⟨_, _, rfl, (), rest, [], 0, 0, r, 0, ⟨rfl, by simpa using h⟩, ⟨rfl, rfl, rfl, rfl⟩, by simp, by simp, by simp⟩
    · simp only [List.headD_nil]
      cases k
      case reg => exact absurd rfl (h1 _)
      all_goals exact ⟨rfl, rfl, rfl, rfl⟩

/-- The rest of a memory operand. -/
def offSem (i : Bool) (a w sh n : Nat) : Sem Unit := fun _ _ _ ks _ b r => r = 0 ∧ ∃ off, ks = off ++ [.rbracket] ∧
  ((off = [] ∧ b = 0) ∨ (i = true ∧ ∃ y : Int, off = [.imm y] ∧
        (if n = 255 then 0 ≤ y ∧ y < 2 ^ w else -(2 ^ (w - 1)) ≤ y ∧ y < 2 ^ (w - 1)) ∧ b = sfield a w (y / 2 ^ sh)))

theorem memory_flat {i : Bool} {a w sh : Nat} {e : Env} {v b : BitVec 64} {ks : List Kind} {k : Kind} {r : BitVec 32} {u : Unit} :
    seq (still fun _ _ _ k => k = .lbracket) (fun _ : Unit => seq adv fun _ => seq baseSem fun n =>
      seq (add (field 8 n)) fun _ => offSem i a w sh n) e v u ks k b r ↔ memory i a w sh ks k b r := by
  simp only [seq_still, seq_adv, memory]
  constructor
  · rintro ⟨_, hl, k0, ks, rfl, n, ks1, ks2, b1, b2, r1, r2, ⟨rfl, h⟩, hq, rfl, rfl, rfl⟩
    rw [seq_add] at hq
    obtain ⟨b', rfl, rfl, off, rfl, ho⟩ := hq
    simp only [List.headD_cons] at hl
    subst hl
    refine ⟨n, ks1, off, rfl, ?_, ?_⟩
    · rcases h with ⟨rest, rfl, h⟩ | ⟨rfl, h, rfl, rfl⟩
      · refine .inl ⟨rest, rfl, ?_⟩
        cases off <;> simpa using h
      · exact .inr ⟨rfl, rfl, by simp⟩
    · rcases ho with ⟨rfl, rfl⟩ | ⟨hi, y, rfl, hy, rfl⟩
      · exact .inl ⟨rfl, by simp⟩
      · exact .inr ⟨hi, y, rfl, hy, by simp⟩
  · rintro ⟨n, base, off, rfl, hb, ho⟩
    refine ⟨(), rfl, _, _, rfl, n, base, off ++ [.rbracket], 0, b, r, 0, ⟨rfl, ?_⟩, ?_, rfl, by simp, by simp⟩
    · have ho' : off = [] ∨ ∃ y, off = [.imm y] := by
        rcases ho with ⟨rfl, -⟩ | ⟨-, y, rfl, -⟩
        · exact .inl rfl
        · exact .inr ⟨y, rfl⟩
      rcases hb with ⟨rest, rfl, h⟩ | ⟨rfl, rfl, rfl⟩
      · refine .inl ⟨rest, rfl, ?_⟩
        rcases ho' with rfl | ⟨y, rfl⟩ <;> simpa using h
      · refine .inr ⟨rfl, ?_, rfl, rfl⟩
        rcases ho' with rfl | ⟨y, rfl⟩ <;> simp
    · change seq (add (field 8 n)) _ _ _ _ _ _ _ _
      rw [seq_add]
      rcases ho with ⟨rfl, rfl⟩ | ⟨hi, y, rfl, hy, rfl⟩
      · exact ⟨0, by simp, rfl, [], rfl, .inl ⟨rfl, rfl⟩⟩
      · exact ⟨_, rfl, rfl, [.imm y], rfl, .inr ⟨hi, y, rfl, hy, rfl⟩⟩

theorem den_memory (i : Bool) (a w sh : Nat) (h : w + sh ≤ 64) : Den (runMemAddress i a w sh)
    (fun _ _ _ => memory i a w sh) := by
  unfold runMemAddress
  apply Den.conv (hi := fun _ _ _ _ _ _ _ _ _ => memory_flat)
  refine Den.bind (Den.confirm _) fun _ => Den.bind Den.advance fun _ => Den.assoc (Den.bind den_base fun n => ?_)
  rw [← field_eq]
  refine Den.bind (Den.addBits _) fun _ => ?_
  cases i <;> simp only [Bool.false_eq_true, if_true, if_false]
  · apply Den.conv
    · den
    intro e v u ks k b r _ _
    sem
    unfold offSem
    grind [List.headD]
  · apply Den.conv
    · apply Den.byKind (P := fun t e v u ks k b r =>
        (∃ x y, t = .imm x ∧ ks = [.imm y, .rbracket] ∧
          (if n = 255 then 0 ≤ y ∧ y < 2 ^ w else -(2 ^ (w - 1)) ≤ y ∧ y < 2 ^ (w - 1)) ∧ b = sfield a w (y / 2 ^ sh) ∧
          r = 0) ∨ ((∀ x, t ≠ .imm x) ∧ ks = [.rbracket] ∧ b = 0 ∧ r = 0))
      intro t
      cases t
      case imm x =>
        dsimp only
        apply Den.conv
        · den
        intro e v u ks k b r _ _
        sem
        simp only [mem_bits h, maxBits]
        constructor
        · rintro ⟨y, ⟨h1, h2, h3⟩, _, rfl, k0, ks', rfl, h4, rfl, rfl, k1, rfl⟩
          simp only [List.headD_cons] at h1 h4
          subst h1 h4
          refine .inl ⟨x, y, rfl, rfl, ?_, by simp, rfl⟩
          by_cases hn : n = 255 <;> simp only [hn, decide_true, decide_false, if_true, if_false, Bool.false_eq_true] at h2 h3 ⊢
          all_goals omega
        · rintro (⟨_, y, -, rfl, hy, rfl, rfl⟩ | ⟨h1, -⟩)
          · refine ⟨y, ⟨rfl, ?_⟩, 0, by simp, _, _, rfl, rfl, rfl, rfl, _, rfl⟩
            by_cases hn : n = 255 <;> simp only [hn, decide_true, decide_false, if_true, if_false, Bool.false_eq_true] at hy ⊢
            all_goals omega
          · exact absurd rfl (h1 x)
      all_goals
        dsimp only
        apply Den.conv
        · den
        intro e v u ks k b r _ _
        sem
        simp only [reduceCtorEq, false_and, exists_false, false_or, ne_eq, not_false_eq_true, implies_true, true_and]
        grind [List.headD]
    intro e v u ks k b r _ _
    unfold offSem byKind
    constructor
    · rintro (⟨x, y, -, rfl, hy, rfl, rfl⟩ | ⟨-, rfl, rfl, rfl⟩)
      · exact ⟨rfl, [.imm y], rfl, .inr ⟨rfl, y, rfl, hy, rfl⟩⟩
      · exact ⟨rfl, [], rfl, .inl ⟨rfl, rfl⟩⟩
    · rintro ⟨rfl, off, rfl, ⟨rfl, rfl⟩ | ⟨-, y, rfl, hy, rfl⟩⟩
      · exact .inr ⟨by simp, rfl, rfl, rfl⟩
      · exact .inl ⟨y, y, rfl, rfl, hy, rfl, rfl⟩

theorem den_ldcAddress : Den runLdcAddress (fun e v _ => Accepts e v .ldcAddress) := by
  unfold runLdcAddress
  apply Den.conv
  · apply Den.bind Den.getKind
    intro t
    apply Den.ite (Den.failTok _)
    refine Den.bind Den.advance fun _ => Den.bind (Den.confirm _) fun _ => Den.bind Den.advance fun _ =>
      Den.bind (Den.convertInteger _ _) fun _ => Den.bind (Den.addBits _) fun _ => Den.bind Den.advance fun _ =>
      Den.bind (Den.confirm _) fun _ => Den.bind Den.advance fun _ => den_memory _ _ _ _ (by omega)
  intro e v u ks k b r _ _
  sem
  simp only [Accepts, maxBits]
  constructor
  · rintro ⟨h1, k0, ks1, rfl, h2, k1, ks2, rfl, x, ⟨h3, h4, h5⟩, b1, rfl, k2, ks3, rfl, h6, k3, ks4, rfl, h⟩
    simp only [List.headD_cons] at h1 h2 h3 h6
    subst h1 h2 h3 h6
    obtain ⟨n, rfl⟩ := Int.eq_ofNat_of_zero_le h4
    exact ⟨n, ks4, b1, rfl, by omega, by rw [u64_shl h4]; simp, h⟩
  · rintro ⟨n, rest, b1, rfl, hn, rfl, h⟩
    exact ⟨rfl, _, _, rfl, rfl, _, _, rfl, n, ⟨rfl, by omega, by omega⟩, b1, by rw [u64_shl (by omega)]; simp, _, _, rfl, rfl,
      _, _, rfl, h⟩

/-! ### Attributes and words -/

theorem den_addAll (l : List (BitVec 64)) : Den (addAll l) (add (l.foldr (· ||| ·) 0)) := by
  induction l with
  | nil =>
    apply Den.conv (Den.pure _)
    intro e v u ks k b r _ _
    simp [add, still]
  | cons x l ih =>
    unfold addAll
    apply Den.conv
    · exact Den.bind (Den.addBits _) fun _ => ih
    intro e v u ks k b r _ _
    sem
    simp only [List.foldr_cons]
    grind

theorem foldr_or_append (x y : List (BitVec 64)) :
    (x ++ y).foldr (· ||| ·) 0 = x.foldr (· ||| ·) 0 ||| y.foldr (· ||| ·) 0 := by
  induction x with
  | nil => simp
  | cons a x ih => rw [List.cons_append, List.foldr_cons, ih, List.foldr_cons, BitVec.or_assoc]

theorem den_expect (w : Str) (pre post : List (BitVec 64)) : Den (runExpect w pre post)
    (fun e v _ => Accepts e v (.expect w pre post)) := by
  unfold runExpect
  apply Den.conv
  · apply Den.bind Den.getKind
    intro t
    apply Den.ite (Den.failTok _)
    exact Den.bind (den_addAll _) fun _ => Den.bind Den.advance fun _ => den_addAll _
  intro e v u ks k b r _ _
  sem
  simp only [Accepts, foldr_or_append]
  grind [List.headD]

theorem den_attrOpen : Den attrOpen (fun _ _ _ ks _ b r => ks = [.ident c!"a", .lbracket] ∧ b = 0 ∧ r = 0) := by
  unfold attrOpen
  apply Den.conv
  · den
  intro e v u ks k b r _ _
  sem
  grind [List.headD]

theorem den_attrClose : Den attrClose (fun _ _ _ ks _ b r => ks = [.rbracket] ∧ b = 0 ∧ r = 0) := by
  unfold attrClose
  apply Den.conv
  · den
  intro e v u ks k b r _ _
  sem
  grind [List.headD]

/-- A piece between `a[` and `]`. -/
theorem attr_flat {P : Sem Unit} {e : Env} {v b : BitVec 64} {ks : List Kind} {k : Kind} {r : BitVec 32} {u : Unit} :
    seq (fun _ _ (_ : Unit) ks _ b r => ks = [.ident c!"a", .lbracket] ∧ b = 0 ∧ r = 0) (fun _ =>
      seq P fun _ => (fun _ _ _ ks _ b r => ks = [.rbracket] ∧ b = 0 ∧ r = 0)) e v u ks k b r ↔
    ∃ ks1, ks = .ident c!"a" :: .lbracket :: (ks1 ++ [.rbracket]) ∧ P e v () ks1 .rbracket b r := by
  constructor
  · rintro ⟨_, _, _, _, _, _, _, ⟨rfl, rfl, rfl⟩, ⟨_, ks1, _, b1, _, r1, _, hP, ⟨rfl, rfl, rfl⟩, rfl, rfl, rfl⟩, rfl, rfl, rfl⟩
    exact ⟨ks1, by simp, by simpa using hP⟩
  · rintro ⟨ks1, rfl, h⟩
    exact ⟨(), _, _, _, b, _, r, ⟨rfl, rfl, rfl⟩, ⟨(), ks1, _, b, _, r, _, by simpa using h, ⟨rfl, rfl, rfl⟩, rfl, by simp,
      by simp⟩, rfl, by simp, by simp⟩

theorem den_physAttr : Den runPhysAttr (fun e v _ => Accepts e v .physAttr) := by
  unfold runPhysAttr
  apply Den.conv
  · exact Den.bind den_attrOpen fun _ => Den.bind (den_gpr _) fun _ => den_attrClose
  intro e v u ks k b r _ _
  rw [attr_flat]
  simp only [Accepts, register]
  constructor
  · rintro ⟨_, rfl, n, rest, rfl, rfl, h⟩
    exact ⟨n, rest, rfl, h, rfl⟩
  · rintro ⟨n, rest, rfl, h, rfl⟩
    exact ⟨_, rfl, n, rest, rfl, rfl, h⟩

theorem den_immAttr : Den runImmAttr (fun e v _ => Accepts e v .immAttr) := by
  unfold runImmAttr
  apply Den.conv
  · exact Den.bind den_attrOpen fun _ => Den.assoc (f := fun _ => addBits _) (Den.bind
      (Den.bind (den_uint _ _) fun _ => Den.addBits _) fun _ => den_attrClose)
  intro e v u ks k b r _ _
  rw [attr_flat]
  simp only [Accepts, maxBits]
  constructor
  · rintro ⟨_, rfl, _, _, _, _, _, _, _, ⟨rfl, x, rfl, hx, rfl⟩, ⟨rfl, rfl, rfl⟩, rfl, rfl, rfl⟩
    exact ⟨by simp, x, rfl, by omega, by simp [shl_eq]⟩
  · rintro ⟨rfl, x, rfl, hx, rfl⟩
    refine ⟨[.imm x], rfl, (), [.imm x], [], _, _, 0, 0, ⟨rfl, x, rfl, by omega, rfl⟩, ⟨rfl, rfl, rfl⟩, by simp,
      by simp [shl_eq], by simp⟩

theorem Den.assoc' {m : M α} {f : α → M β} {g : β → M γ} {P : Sem γ} (h : Den (m >>= fun x => f x >>= g) P) :
    Den ((m >>= f) >>= g) P := by
  intro s hs a s'
  rw [← h s hs]
  simp only [bind_iff]
  constructor
  · rintro ⟨y, s2, ⟨x, s1, h1, h2⟩, h3⟩
    exact ⟨x, s1, h1, y, s2, h2, h3⟩
  · rintro ⟨x, s1, h1, y, s2, h2, h3⟩
    exact ⟨y, s2, ⟨x, s1, h1, h2⟩, h3⟩

theorem den_patchAttr : Den runPatchAttr (fun e v _ => Accepts e v .patchAttr) := by
  have hc : ∀ P, Den (do
      assembleGpr 8
      let t ← getKind
      if t = .plus then do { advance; runSint 11 20 } else do { M.pure (); runSint 11 20 }) P →
      Den runPatchAttr (seq (fun _ _ (_ : Unit) ks _ b r => ks = [.ident c!"a", .lbracket] ∧ b = 0 ∧ r = 0) (fun _ =>
      seq P fun _ => (fun _ _ _ ks _ b r => ks = [.rbracket] ∧ b = 0 ∧ r = 0))) := by
    intro P hP
    unfold runPatchAttr
    refine Den.bind den_attrOpen fun _ => ?_
    have := Den.bind hP fun _ => den_attrClose
    intro s hs a s'
    rw [← this s hs]
    simp only [bind_iff, ite_iff]
    constructor
    · rintro ⟨x, s1, h1, t, s2, h2, ⟨h3, y, s3, h4, z, s4, h5, h6⟩ | ⟨h3, y, s3, h4, z, s4, h5, h6⟩⟩
      · exact ⟨_, s4, ⟨x, s1, h1, t, s2, h2, .inl ⟨h3, y, s3, h4, h5⟩⟩, h6⟩
      · exact ⟨_, s4, ⟨x, s1, h1, t, s2, h2, .inr ⟨h3, y, s3, h4, h5⟩⟩, h6⟩
    · rintro ⟨_, s4, ⟨x, s1, h1, t, s2, h2, ⟨h3, y, s3, h4, h5⟩ | ⟨h3, y, s3, h4, h5⟩⟩, h6⟩
      · exact ⟨x, s1, h1, t, s2, h2, .inl ⟨h3, y, s3, h4, _, s4, h5, h6⟩⟩
      · exact ⟨x, s1, h1, t, s2, h2, .inr ⟨h3, y, s3, h4, _, s4, h5, h6⟩⟩
  apply Den.conv
  · apply hc
    refine Den.bind (den_gpr _) fun _ => Den.bind Den.getKind fun _ => Den.ite (Den.bind Den.advance fun _ => den_sint _ _)
      (Den.bind (Den.pure _) fun _ => den_sint _ _)
  intro e v u ks k b r _ _
  rw [attr_flat]
  constructor
  · rintro ⟨_, rfl, _, _, ks2, _, b2, r1, r2, ⟨n, rest, rfl, rfl, h⟩, hq, rfl, rfl, rfl⟩
    rw [seq_still] at hq
    obtain ⟨t, ht, ⟨rfl, hq⟩ | ⟨hn, hq⟩⟩ := hq
    · rw [seq_adv] at hq
      obtain ⟨k0, ks', rfl, rfl, y, rfl, h1, h2, rfl⟩ := hq
      simp only [List.headD_cons] at ht h
      subst ht
      exact ⟨n, rest, [.plus], y, by simp, .inr rfl, by simpa using h, by omega, by omega, rfl⟩
    · rw [seq_still] at hq
      obtain ⟨_, -, rfl, y, rfl, h1, h2, rfl⟩ := hq
      exact ⟨n, rest, [], y, by simp, .inl rfl, by simpa using h, by omega, by omega, rfl⟩
  · rintro ⟨n, rest, plus, y, rfl, hp, h, h1, h2, rfl⟩
    refine ⟨.reg n :: (rest ++ (plus ++ [.imm y])), by simp, (), .reg n :: rest, plus ++ [.imm y], _, _, r, 0,
      ⟨n, rest, rfl, rfl, ?_⟩, ?_, by simp, rfl, by simp⟩
    · rcases hp with rfl | rfl <;> simpa using h
    · change seq _ _ _ _ _ _ _ _ _
      rw [seq_still]
      rcases hp with rfl | rfl
      · refine ⟨.imm y, rfl, .inr ⟨by simp, ?_⟩⟩
        rw [seq_still]
        exact ⟨(), rfl, rfl, y, rfl, by omega, by omega, rfl⟩
      · refine ⟨.plus, rfl, .inl ⟨rfl, ?_⟩⟩
        rw [seq_adv]
        exact ⟨_, _, rfl, rfl, y, rfl, by omega, by omega, rfl⟩

theorem alt_true (P Q : Sem α) : alt True P Q = P := by funext; simp [alt]
theorem alt_false (P Q : Sem α) : alt False P Q = Q := by funext; simp [alt]

theorem den_f2fRounding : Den runF2fRounding (fun e v _ => Accepts e v .f2fRounding) := by
  unfold runF2fRounding
  apply Den.conv
  · apply Den.bind Den.getValue
    intro v
    refine Den.ite (P := byKind fun t => alt (t.equal c!".ROUND" = true) (seq adv fun _ => add (8#64 <<< 39))
      (alt (t.equal c!".FLOOR" = true) (seq adv fun _ => add (9#64 <<< 39))
      (alt (t.equal c!".CEIL" = true) (seq adv fun _ => add (10#64 <<< 39))
      (alt (t.equal c!".TRUNC" = true) (seq adv fun _ => add (11#64 <<< 39))
      (alt (t.equal c!".PASS" = true) (seq adv fun _ => add (3#64 <<< 39)) (add (0#64 <<< 39))))))) ?_ (den_dotTable _ _ _)
    apply Den.byKind
    intro t
    dsimp only
    by_cases h1 : t.equal c!".ROUND" = true
    · simp only [h1, if_true, alt_true]
      exact Den.bind Den.advance fun _ => Den.addBits _
    by_cases h2 : t.equal c!".FLOOR" = true
    · simp only [h1, h2, Bool.false_eq_true, if_false, if_true, alt_true, alt_false]
      exact Den.bind Den.advance fun _ => Den.addBits _
    by_cases h3 : t.equal c!".CEIL" = true
    · simp only [h1, h2, h3, Bool.false_eq_true, if_false, if_true, alt_true, alt_false]
      exact Den.bind Den.advance fun _ => Den.addBits _
    by_cases h4 : t.equal c!".TRUNC" = true
    · simp only [h1, h2, h3, h4, Bool.false_eq_true, if_false, if_true, alt_true, alt_false]
      exact Den.bind Den.advance fun _ => Den.addBits _
    by_cases h5 : t.equal c!".PASS" = true
    · simp only [h1, h2, h3, h4, h5, Bool.false_eq_true, if_false, if_true, alt_true, alt_false]
      exact Den.bind Den.advance fun _ => Den.addBits _
    · simp only [h1, h2, h3, h4, h5, Bool.false_eq_true, if_false, if_true, alt_true, alt_false]
      exact Den.addBits _
  intro e v u ks k b r _ _
  have hv : ((v >>> 8) &&& 3#64 = (v >>> 10) &&& 3#64) ↔ bitsAt v 8 2 = bitsAt v 10 2 := by
    rw [← bitsAt_mask v 8 2 (by omega), ← bitsAt_mask v 10 2 (by omega), BitVec.toNat_inj]
  rw [seq_still]
  simp only [exists_eq_left, Accepts]
  unfold alt
  rw [hv]
  by_cases h : bitsAt v 8 2 = bitsAt v 10 2
  · simp only [h, if_true, byKind]
    sem
    rcases ks with _ | ⟨k0, _ | ⟨k1, ks⟩⟩
    all_goals simp only [ex_cons, ex_nil]
    all_goals simp [or_and_right, exists_or, and_assoc, field_zero]
    all_goals grind (splits := 40)
  · simp [h]

theorem den_selector (a ta sh : Nat) (ss bs : List Str) (h : sh < 8) : Den (runSelector a ta sh ss bs)
    (fun e v _ => Accepts e v (.selector a ta sh ss bs)) := by
  unfold runSelector
  apply Den.conv
  · exact Den.bind Den.getValue fun _ => den_dotTable _ _ _
  intro e v u ks k b r _ _
  rw [seq_still]
  simp only [exists_eq_left, Accepts]
  have : ((v >>> ta) &&& 7#64 = BitVec.ofNat 64 sh) ↔ bitsAt v ta 3 = sh := by
    rw [← bitsAt_mask v ta 3 (by omega), ← BitVec.toNat_inj]
    simp [Nat.mod_eq_of_lt (show sh < 2 ^ 64 by omega)]
  simp only [this]

theorem den_abs (a : Nat) (o : Operand) (h : Den o.run (fun e v _ => Accepts e v o)) : Den (runAbs a o.run)
    (fun e v _ => Accepts e v (.abs a o)) := by
  unfold runAbs
  apply Den.conv
  · apply Den.bind Den.getKind
    intro t
    apply Den.ite
    · exact Den.bind (Den.addBits _) fun _ => Den.bind Den.advance fun _ => Den.bind h fun _ =>
        Den.bind (Den.confirm _) fun _ => Den.advance
    · exact h
  intro e v u ks k b r _ _
  sem
  simp only [Accepts]
  constructor
  · rintro (⟨h1, b', rfl, k0, ks1, rfl, _, ks2, ks3, b1, b2, r1, r2, hA, hq, rfl, rfl, rfl⟩ | h1)
    · rw [seq_still] at hq
      obtain ⟨_, hk, rfl, rfl, k1, rfl⟩ := hq
      simp only [List.headD_cons] at h1 hk hA
      subst h1 hk
      exact .inl ⟨ks2, b1, rfl, by simp, by simpa using hA⟩
    · exact .inr h1
  · rintro (⟨ks1, b1, rfl, rfl, hA⟩ | h1)
    · refine .inl ⟨rfl, b1, by simp, _, _, rfl, (), ks1, [.vbar], b1, 0, r, 0, by simpa using hA, ?_, rfl, by simp, by simp⟩
      change seq _ _ _ _ _ _ _ _ _
      rw [seq_still]
      exact ⟨(), rfl, rfl, rfl, _, rfl⟩
    · exact .inr h1

/-! ### All operands -/

/-- The operands that only add bits. -/
def Operand.adds : Operand → Bool
  | .mirrorGpr _ | .tldsType _ | .texsType _ => false
  | .abs _ o => o.adds
  | .selector _ _ k _ _ => k < 8
  | .memAddress _ _ w sh => w + sh ≤ 64
  | _ => true

theorem den_operand (o : Operand) (h : o.adds = true) : Den o.run (fun e v _ => Accepts e v o) := by
  induction o with
  | abs a o ih =>
    exact den_abs a o (ih h)
  | flag => exact den_flag _ _
  | uint => exact den_uint _ _
  | sint => exact den_sint _ _
  | dotTable => exact den_dotTable _ _ _
  | uimmExtended => exact den_uimmExtended
  | comma => exact den_comma
  | label => exact den_label
  | gpr => exact den_gpr _
  | cbuf => exact den_cbuf
  | imm20 => exact den_imm20
  | fimm => exact den_fimm _
  | dimm20 => exact den_dimm20
  | himm => exact den_himm _ _ _
  | bop => exact den_bop _
  | pred => exact den_pred _ _
  | invertedPred => exact den_invertedPred _
  | neg => exact den_neg _
  | tilde => exact den_tilde _
  | po => exact den_po _ _
  | defaultRz => exact den_defaultRz _
  | memAddress => exact den_memory _ _ _ _ (by simpa [Operand.adds] using h)
  | ccTests => exact den_ccTests _ _
  | expect => exact den_expect _ _ _
  | optText => exact den_optText _
  | immAttr => exact den_immAttr
  | patchAttr => exact den_patchAttr
  | physAttr => exact den_physAttr
  | xmadSigns => exact den_xmadSigns
  | f2fRounding => exact den_f2fRounding
  | intFormat => exact den_intFormat _ _ _ _
  | plainTable => exact den_plainTable _ _
  | selector => exact den_selector _ _ _ _ _ (by simpa [Operand.adds] using h)
  | ldcAddress => exact den_ldcAddress
  | s2r => exact den_s2r _
  | ldgSize => exact den_ldgSize
  | atomicSize => exact den_atomicSize _
  | srcFormat => exact den_srcFormat _ _
  | immFormat => exact den_dotTable _ _ _
  | texType => exact den_texType _
  | zero => exact den_zero
  | texsMode => exact den_texsMode _
  | texsSwizzle => exact den_texsSwizzle
  | mirrorGpr => simp [Operand.adds] at h
  | tldsType => simp [Operand.adds] at h
  | texsType => simp [Operand.adds] at h

/-! ### Operands that replace bits -/

/-- The state after tokens that replace the bits `x` by the bits `b`. -/
def St.set (s : St) (x b : BitVec 64) (r : BitVec 32) (t : Token) (c : Cur) : St :=
  ⟨{ s.ctx with cur := c }, t, { s.op with value := (s.op.value &&& ~~~x) ||| b, reuse := s.op.reuse ||| r }⟩

theorem St.set_zero (s : St) (b : BitVec 64) (r : BitVec 32) (t : Token) (c : Cur) : s.set 0 b r t c = s.put b r t c := by
  have : ~~~(0 : BitVec 64) = BitVec.allOnes 64 := by decide
  simp only [St.set, St.put, this, BitVec.and_allOnes]

/-- Setting the value and then running a computation with a meaning. -/
theorem Den.replace {m : M Unit} {P : Sem Unit} (h : Den m P) (s : St) (hs : s.tok.kind.proper) (x : BitVec 64) (s' : St) :
    (setValue (s.op.value &&& ~~~x) >>= fun _ => m) false s = .ok () s' ↔
      ∃ ks b r t c, Path s.tok s.ctx.cur ks t c ∧ P s.ctx.env (s.op.value &&& ~~~x) () ks t.kind b r ∧
        s' = s.set x b r t c := by
  rw [bind_iff]
  simp only [setValue_iff]
  constructor
  · rintro ⟨_, s1, rfl, h1⟩
    obtain ⟨ks, b, r, t, c, hp, hP, rfl⟩ := (h { s with op := { s.op with value := s.op.value &&& ~~~x } } hs _ _).1 h1
    exact ⟨ks, b, r, t, c, hp, hP, rfl⟩
  · rintro ⟨ks, b, r, t, c, hp, hP, rfl⟩
    exact ⟨(), _, rfl, (h { s with op := { s.op with value := s.op.value &&& ~~~x } } hs _ _).2
      ⟨ks, b, r, t, c, hp, hP, rfl⟩⟩

theorem flag_iff (v : BitVec 64) (a : Nat) : decide ((v >>> a) &&& 1#64 ≠ 0#64) = (bitsAt v a 1 == 1) := by
  rw [← bitsAt_mask v a 1 (by omega)]
  have h : ((v >>> a) &&& BitVec.ofNat 64 (2 ^ 1 - 1)).toNat < 2 := by
    rw [bitsAt_mask v a 1 (by omega)]; exact Nat.mod_lt _ (by omega)
  rw [show BitVec.ofNat 64 (2 ^ 1 - 1) = 1#64 from rfl] at *
  generalize (v >>> a) &&& 1#64 = x at h
  rw [Bool.eq_iff_iff]
  simp only [ne_eq, decide_eq_true_eq, beq_iff_eq, ← BitVec.toNat_inj, BitVec.toNat_ofNat]
  omega

theorem tldsCodes_iff {w : Str} {ll ao ms : Bool} {x : Nat} : (w, ll, ao, ms, x) ∈ tldsCodes ↔
    ∃ i, Entry [] [c!"1D", c!"2D", c!"3D", c!"ARRAY_2D"] (.ident w) i ∧ tldsMode i ll ao ms = .ok x := by
  simp only [ex_entry_cons, ex_entry_nil, tldsCodes]
  cases ll <;> cases ao <;> cases ms <;> simp [tldsMode] <;> grind (splits := 40)

theorem getValue_bind (f : BitVec 64 → M α) (d : Bool) (s : St) : (getValue >>= f) d s = f s.op.value d s := rfl

theorem run_tlds (a : Nat) (s : St) (hs : s.tok.kind.proper) (s' : St) : runTldsType a false s = .ok () s' ↔
    ∃ ks b r t c, Path s.tok s.ctx.cur ks t c ∧ Accepts s.ctx.env s.op.value (.tldsType a) ks t.kind b r ∧
      s' = s.set (field a 7) b r t c := by
  unfold runTldsType
  rw [getValue_bind]
  simp only [flag_iff]
  generalize hll : (bitsAt s.op.value a 1 == 1) = ll
  generalize hao : (bitsAt s.op.value (a + 1) 1 == 1) = ao
  generalize hms : (bitsAt s.op.value (a + 2) 1 == 1) = ms
  have hd : Den (findInTable true [c!"1D", c!"2D", c!"3D", c!"ARRAY_2D"] [] >>= fun r => match r with
      | none => failTok "expected 1D, 2D, ARRAY_2D, or 3D"
      | some i =>
        match tldsMode i ll ao ms with
        | .error msg => failTok msg
        | .ok mode => do
          addBits (BitVec.ofNat 64 mode <<< a)
          advance) (fun _ _ _ ks _ b r => r = 0 ∧ ∃ w x, ks = [.ident w] ∧ b = field a x ∧
            (w, ll, ao, ms, x) ∈ tldsCodes) := by
    apply Den.conv
    · apply Den.bindOpt (Den.findInTable _ _ _) (Q := fun i _ _ _ ks _ b r => r = 0 ∧ (∃ k0, ks = [k0]) ∧
        ∃ x, tldsMode i ll ao ms = .ok x ∧ b = field a x)
      · exact Den.failTok _
      · intro i
        dsimp only
        cases hm : tldsMode i ll ao ms with
        | error => apply Den.conv (Den.failTok _); simp [bot]
        | ok x =>
          apply Den.conv
          · den
          intro e v u ks k b r _ _
          sem
          simp
          grind
    intro e v u ks k b r _ _
    sem
    simp only [tldsCodes_iff]
    constructor
    · rintro ⟨i, he, rfl, ⟨k0, rfl⟩, x, hm, rfl⟩
      simp only [List.headD_cons] at he
      obtain ⟨name, rfl, h1, h2⟩ := he
      exact ⟨rfl, name, x, rfl, rfl, i, ⟨name, rfl, h1, h2⟩, hm⟩
    · rintro ⟨rfl, w, x, rfl, rfl, i, he, hm⟩
      exact ⟨i, he, rfl, ⟨_, rfl⟩, x, hm, rfl⟩
  have := hd.replace s hs (field a 7) s'
  simp only [Accepts, hll, hao, hms]
  rw [← this, ← field_eq]
  exact Iff.rfl

theorem texsCodes_iff {w : Str} {lod : Nat} (hl : lod < 4) {dc : Bool} {b : BitVec 64} :
    (∃ x, (w, lod, dc, x) ∈ texsCodes ∧ b = field 53 x) ↔
    ∃ i, Entry [] texsTypeTable (.ident w) i ∧ w ≠ [] ∧ texsBits i lod dc = .ok b := by
  simp only [ex_entry_cons, ex_entry_nil, texsCodes, texsTypeTable]
  have : lod = 0 ∨ lod = 1 ∨ lod = 2 ∨ lod = 3 := by omega
  by_cases h0 : w = []
  · subst h0; simp
  by_cases h1 : w = c!"1D"
  · subst h1; rcases this with rfl | rfl | rfl | rfl <;> cases dc <;> simp [texsBits, field, @eq_comm _ _ b]
  by_cases h2 : w = c!"2D"
  · subst h2; rcases this with rfl | rfl | rfl | rfl <;> cases dc <;> simp [texsBits, field, @eq_comm _ _ b]
  by_cases h3 : w = c!"ARRAY_2D"
  · subst h3; rcases this with rfl | rfl | rfl | rfl <;> cases dc <;> simp [texsBits, field, @eq_comm _ _ b]
  by_cases h4 : w = c!"3D"
  · subst h4; rcases this with rfl | rfl | rfl | rfl <;> cases dc <;> simp [texsBits, field, @eq_comm _ _ b]
  by_cases h5 : w = c!"CUBE"
  · subst h5; rcases this with rfl | rfl | rfl | rfl <;> cases dc <;> simp [texsBits, field, @eq_comm _ _ b]
  simp [h0, h1, h2, h3, h4, h5]

theorem lod_iff (v : BitVec 64) (a : Nat) : ((v >>> a) &&& 3#64).toNat = bitsAt v a 2 := bitsAt_mask v a 2 (by omega)

theorem bitsAt_testBit (v : BitVec 64) (a w j : Nat) : (bitsAt v a w).testBit j = (decide (j < w) && v.getLsbD (a + j)) := by
  unfold bitsAt
  rw [Nat.testBit_mod_two_pow, Nat.testBit_div_two_pow, Nat.add_comm]
  rfl

theorem field_getLsbD (a n i : Nat) : (field a n).getLsbD i = (decide (i < 64) && (decide (a ≤ i) && n.testBit (i - a))) := by
  rw [← field_eq, BitVec.getLsbD_shiftLeft, BitVec.getLsbD_ofNat]
  by_cases h1 : i < 64 <;> by_cases h2 : a ≤ i
  · simp [h1, h2, show ¬ i < a by omega, show i - a < 64 by omega]
  · simp [h1, h2, show i < a by omega]
  · simp [h1]
  · simp [h1]

theorem dc_iff (v : BitVec 64) (a : Nat) : decide ((v >>> a) &&& 4#64 ≠ 0#64) = (bitsAt v (a + 2) 1 == 1) := by
  rw [← flag_iff]
  rw [decide_eq_decide, ne_eq, ne_eq, not_iff_not]
  constructor
  · intro h
    apply BitVec.eq_of_getLsbD_eq
    intro i hi
    have := congrArg (·.getLsbD 2) h
    simp at this
    by_cases h0 : i = 0
    · subst h0; simpa using this
    · simp [h0]
  · intro h
    apply BitVec.eq_of_getLsbD_eq
    intro i hi
    have := congrArg (·.getLsbD 0) h
    simp at this
    by_cases h0 : i = 2
    · subst h0; simpa using this
    · have h4 : (4#64).getLsbD i = false := by
        rw [show (4#64) = BitVec.twoPow 64 2 from rfl, BitVec.getLsbD_twoPow]
        simp [Ne.symm h0]
      simp [h4]

theorem run_texs (a : Nat) (s : St) (hs : s.tok.kind.proper) (s' : St) : runTexsType a false s = .ok () s' ↔
    ∃ ks b r t c, Path s.tok s.ctx.cur ks t c ∧ Accepts s.ctx.env s.op.value (.texsType a) ks t.kind b r ∧
      s' = s.set (field a 7) b r t c := by
  have hd : ∀ i lod dc, Den (match texsBits i lod dc with
      | .error msg => failTok msg
      | .ok b => do
        addBits b
        advance) (fun _ _ _ ks _ b r => r = 0 ∧ (∃ k0, ks = [k0]) ∧ texsBits i lod dc = .ok b) := by
    intro i lod dc
    cases texsBits i lod dc with
    | error => apply Den.conv (Den.failTok _); simp [bot]
    | ok x =>
      apply Den.conv
      · den
      intro e v u ks k b r _ _
      sem
      simp
      grind
  unfold runTexsType
  rw [bind_iff]
  simp only [Accepts]
  have hlod : bitsAt s.op.value a 2 < 4 := Nat.mod_lt _ (by omega)
  constructor
  · rintro ⟨x, s1, h1, h2⟩
    cases x with
    | none => simp [failTok] at h2
    | some i =>
      obtain ⟨rfl, he⟩ := findInTable_some.1 h1
      dsimp only at h2
      rw [getValue_bind] at h2
      simp only [lod_iff, dc_iff] at h2
      obtain ⟨ks, b, r, t, c, hp, ⟨rfl, ⟨k0, rfl⟩, hb⟩, rfl⟩ := ((hd _ _ _).replace s1 hs (7#64 <<< a) s').1 h2
      obtain ⟨name, hk, h3, h4⟩ := he
      have hk0 : s1.tok.kind = k0 := hp.1
      have hne : name ≠ [] := by
        rintro rfl
        exact hs.2 hk
      obtain ⟨x, hx, rfl⟩ := (texsCodes_iff hlod).2 ⟨i, ⟨name, rfl, h3, h4⟩, hne, hb⟩
      refine ⟨_, _, 0, t, c, hp, ⟨rfl, name, x, ?_, rfl, hx⟩, by rw [← field_eq a 7]⟩
      rw [← hk0, hk]; rfl
  · rintro ⟨ks, b, r, t, c, hp, ⟨rfl, w, x, rfl, rfl, hx⟩, rfl⟩
    obtain ⟨i, he, hne, hb⟩ := (texsCodes_iff hlod).1 ⟨x, hx, rfl⟩
    have hk0 : s.tok.kind = .ident w := hp.1
    refine ⟨some i, s, findInTable_some.2 ⟨rfl, hk0.symm ▸ he⟩, ?_⟩
    dsimp only
    rw [getValue_bind]
    simp only [lod_iff, dc_iff]
    refine ((hd _ _ _).replace s hs (7#64 <<< a) _).2 ⟨_, _, 0, t, c, hp, ⟨rfl, ⟨_, rfl⟩, hb⟩, by rw [← field_eq a 7]⟩

theorem mirror_iff {v : BitVec 64} {a n : Nat} (ha : a ≤ 56) (hn : n < 256) :
    (v &&& ~~~(0xFF#64 <<< a)) ||| field a n = v ↔ bitsAt v a 8 = n := by
  have hff : ∀ j, (255 : Nat).testBit j = decide (j < 8) := fun j => Nat.testBit_two_pow_sub_one 8 j
  rw [show 0xFF#64 <<< a = field a 255 from field_eq ..]
  constructor
  · intro h
    apply Nat.eq_of_testBit_eq
    intro j
    rw [bitsAt_testBit]
    by_cases hj : j < 8
    · rw [← h]
      simp only [BitVec.getLsbD_or, BitVec.getLsbD_and, BitVec.getLsbD_not, field_getLsbD, hff, hj, decide_true,
        show a + j < 64 by omega, show a + j - a = j by omega, show a ≤ a + j by omega, Bool.true_and, Bool.not_true,
        Bool.and_false, Bool.false_or]
    · have : n.testBit j = false := Nat.testBit_lt_two_pow (Nat.lt_of_lt_of_le hn (Nat.pow_le_pow_right (n := 2) (i := 8) (by omega) (by omega)))
      simp [hj, this]
  · rintro rfl
    apply BitVec.eq_of_getLsbD_eq
    intro i hi
    simp only [BitVec.getLsbD_or, BitVec.getLsbD_and, BitVec.getLsbD_not, field_getLsbD, hff, bitsAt_testBit, hi, decide_true,
      Bool.true_and]
    by_cases h1 : a ≤ i
    · rw [show a + (i - a) = i by omega]
      by_cases h2 : i - a < 8 <;> simp [h1, h2]
    · simp [h1]

theorem run_mirror (a : Nat) (ha : a ≤ 56) (s : St) (hs : s.tok.kind.proper) (s' : St) : runMirror a false s = .ok () s' ↔
    ∃ ks b r t c, Path s.tok s.ctx.cur ks t c ∧ Accepts s.ctx.env s.op.value (.mirrorGpr a) ks t.kind b r ∧
      s' = s.set 0 b r t c := by
  unfold runMirror
  rw [getValue_bind, bind_iff]
  simp only [setValue_iff, Accepts]
  simp only [bind_iff, getValue_iff, ite_iff, pure_iff, failTok_iff]
  constructor
  · rintro ⟨_, _, rfl, _, s2, h1, _, _, ⟨rfl, rfl⟩, ⟨h, h'⟩ | ⟨h, rfl, -⟩⟩
    · exact h'.elim
    · obtain ⟨ks, b, r, t, c, hp, ⟨n, rest, rfl, rfl, hr⟩, rfl⟩ :=
        (den_gpr a { s with op := { s.op with value := s.op.value &&& ~~~(0xFF#64 <<< a) } } hs _ _).1 h1
      have hn : n < 256 := Nat.lt_succ_of_le (show n ≤ 255 from ((hp.proper hs).2 (.reg n) (by simp)).1)
      have hv : (s.op.value &&& ~~~(0xFF#64 <<< a)) ||| field a n = s.op.value := Decidable.of_not_not h
      refine ⟨_, 0, r, t, c, hp, ⟨rfl, n, rest, rfl, (mirror_iff ha hn).1 hv, hr⟩, ?_⟩
      rw [St.set_zero]
      simp [St.put, hv]
  · rintro ⟨ks, b, r, t, c, hp, ⟨rfl, n, rest, rfl, hb, hr⟩, rfl⟩
    have hn : n < 256 := Nat.lt_succ_of_le (show n ≤ 255 from ((hp.proper hs).2 (.reg n) (by simp)).1)
    have hv := (mirror_iff ha hn).2 hb
    refine ⟨(), _, rfl, (), _, (den_gpr a { s with op := { s.op with value := s.op.value &&& ~~~(0xFF#64 <<< a) } } hs _ _).2
      ⟨_, _, _, _, _, hp, ⟨n, rest, rfl, rfl, hr⟩, rfl⟩, _, _, ⟨rfl, rfl⟩, .inr ⟨?_, ?_⟩⟩
    · simp [St.put, hv]
    · rw [St.set_zero]
      simp [St.put, hv]

/-- The operands the grammar describes. -/
def Operand.grammatical : Operand → Bool
  | .mirrorGpr a => a ≤ 56
  | .tldsType _ | .texsType _ => true
  | o => o.adds

/-- Every operand parser accepts exactly the tokens of the grammar and writes exactly their bits. -/
theorem Operand.run_iff (o : Operand) (ho : o.grammatical = true) (s : St) (hs : s.tok.kind.proper) (s' : St) :
    o.run false s = .ok () s' ↔
      ∃ ks b r t c, Path s.tok s.ctx.cur ks t c ∧ Accepts s.ctx.env s.op.value o ks t.kind b r ∧
        s' = s.set (clears o) b r t c := by
  by_cases hm : o.adds = true
  · have : clears o = 0 := by cases o <;> first | rfl | simp [Operand.adds] at hm
    rw [this]
    simp only [St.set_zero]
    exact den_operand o hm s hs () s'
  · cases o
    case mirrorGpr a => exact run_mirror a (by simpa [Operand.grammatical] using ho) s hs s'
    case tldsType a => exact run_tlds a s hs s'
    case texsType a => exact run_texs a s hs s'
    all_goals exact absurd ho hm

end Nxas
