import Verif.Props.RoundedBias
import Verif.Props.RoundedShake

/-!
# C141: a resting filter in binary32

The angular rate filter (open_ahrs/src/ar.rs:75-169) fed with a gyrometer that reads exactly its
biases. The corrected rates are exactly zero, whatever the scales and the cross coefficients, so the
attitude is kept bit for bit, for any number of samples and with any method.
-/

namespace Verif
open Scalar
namespace AR

variable {a : ARInit F32} {s : AR F32}

/-- C141: one sample at rest. -/
theorem C141_sample (hs : Started a s) :
    ∃ s', update a.config.xBias a.config.yBias a.config.zBias s = (.ok (), s') ∧ Started a s' ∧
      getAttitude s' = getAttitude s := by
  obtain ⟨⟨f, hf⟩, -, -, -, hc⟩ := hs.ready
  obtain ⟨g, hu, hx, hy, hz⟩ := C140_gyr_still hf.gyr hc
  obtain ⟨-, -, p, q, r, n, w, hx', hy', hz', -, -, -, hw, hn⟩ := hf.readings hu
  obtain rfl := Except.ok.inj (hx.symm.trans hx')
  obtain rfl := Except.ok.inj (hy.symm.trans hy')
  obtain rfl := Except.ok.inj (hz.symm.trans hz')
  have hsmall : (n >ᶠ EPSILON) = false := by
    rw [Vec.calculateNorm_eq hw] at hn
    have e : (seq3 (lit 0) (lit 0) (lit 0) : Nat → F32) = fun _ => lit 0 := by
      funext i
      match i with
      | 0 => rfl
      | 1 => rfl
      | _ + 2 => rfl
    rw [e, if_pos (by decide +kernel)] at hn
    obtain rfl := Except.ok.inj hn
    decide +kernel
  obtain ⟨s', h1, -, h2⟩ := C47_still hs hu hx hy hz hw hn hsmall
  obtain ⟨s0, s1, k0, k1, k2⟩ := hs
  refine ⟨s', h1, ⟨s0, s1, k0, k1, ?_⟩, h2⟩
  have := Leads.step (.update a.config.xBias a.config.yBias a.config.zBias) k2
  rwa [show (call (.update a.config.xBias a.config.yBias a.config.zBias) s).2 = s' from congrArg Prod.snd h1] at this

/-- C141: any number of samples at rest. -/
theorem C141_rest (hs : Started a s) (n : Nat) :
    ∃ s', feed (List.replicate n (a.config.xBias, a.config.yBias, a.config.zBias)) s = (.ok (), s') ∧
      Started a s' ∧ getAttitude s' = getAttitude s := by
  induction n generalizing s with
  | zero => exact ⟨s, rfl, hs, rfl⟩
  | succ n ih =>
    obtain ⟨s1, e1, k1, h1⟩ := C141_sample hs
    obtain ⟨s2, e2, k2, h2⟩ := ih k1
    refine ⟨s2, ?_, k2, h2.trans h1⟩
    rw [List.replicate_succ]
    unfold feed
    rw [Op.bind_ok e1]
    exact e2

/-- C141: a filter that was fed any accepted samples and then rests shows the attitude it had before
the rest. -/
theorem C141_pause (hs : Started a s) (l : List (F32 × F32 × F32)) {s' : AR F32} (h : feed l s = (.ok (), s')) (n : Nat) :
    ∃ s'', feed (List.replicate n (a.config.xBias, a.config.yBias, a.config.zBias)) s' = (.ok (), s'') ∧
      getAttitude s'' = getAttitude s' := by
  have hs' : Started a s' := by
    induction l generalizing s with
    | nil =>
      obtain rfl := congrArg Prod.snd h
      exact hs
    | cons x l ih =>
      obtain ⟨s0, s1, k0, k1, k2⟩ := hs
      rcases e : update x.1 x.2.1 x.2.2 s with ⟨e' | ⟨⟩, s2⟩
      · unfold feed at h
        rw [Op.bind_err e] at h
        cases h
      · unfold feed at h
        rw [Op.bind_ok e] at h
        refine ih ⟨s0, s1, k0, k1, ?_⟩ h
        have := Leads.step (.update x.1 x.2.1 x.2.2) k2
        rwa [show (call (.update x.1 x.2.1 x.2.2) s).2 = s2 from congrArg Prod.snd e] at this
  obtain ⟨s'', e, -, k⟩ := C141_rest hs' n
  exact ⟨s'', e, k⟩

/-- A gyrometer with scales, cross coefficients and the biases (1, -1, 4), and an attitude whose
components are not representable: a million samples at rest change no bit of it. -/
example : ∃ s s', Started { plainE with config := Gyrometer.sampleF, qw := lit (3 / 5), qx := lit (4 / 5) } s ∧
    feed (List.replicate 1000000 (lit 1, lit (-1), lit 4)) s = (.ok (), s') ∧
    (∃ v, getAttitude s' = .ok v ∧ VecIs v 4 (seq4 (lit (3 / 5)) (lit (4 / 5)) (lit 0) (lit 0))) := by
  obtain ⟨s0, e0, -⟩ := AR.new_fresh (F := F32)
  have h := (C46_iff (a := { plainE with config := Gyrometer.sampleF, qw := lit (3 / 5), qx := lit (4 / 5) }) e0).mpr (by
    show (∀ x ∈ Gyrometer.sampleF.params, Finite x) ∧
      Finite (lit (3 / 5) : F32) ∧ Finite (lit (4 / 5) : F32) ∧ Finite (lit 0 : F32) ∧ Finite (lit 0 : F32)
    decide +kernel)
  have hs : Started _ _ := ⟨s0, _, ⟨s0, e0, .refl _⟩, Prod.ext h rfl, .refl _⟩
  obtain ⟨s', e, -, k⟩ := C141_rest hs 1000000
  obtain ⟨v, e1, hv⟩ := C46_attitude ⟨s0, e0, .refl _⟩ (Prod.ext h rfl : initWith _ s0 = (.ok (), _))
  exact ⟨_, s', hs, e, v, k.trans e1, hv⟩

/-- A filter that turned back and forth and then rests. -/
example : ∃ s s' s'', Started plainE s ∧ feed backAndForth s = (.ok (), s') ∧
    feed (List.replicate 1000 (lit 0, lit 0, lit 0)) s' = (.ok (), s'') ∧ getAttitude s'' = getAttitude s' := by
  obtain ⟨s, hs, hA⟩ := plainE_started
  obtain ⟨t1, t2⟩ := plainE_ts
  have t3 : |⟪plainE.ts⟫| ≤ 11 / 1000 := t2
  obtain ⟨h1, h2, -⟩ := backAndForth_undone
  obtain ⟨s', k1, -⟩ := C137_euler (B := 1) (C := 1) hs rfl t1 default_upTo (by norm_num) (by norm_num)
    (by norm_num) (by norm_num at t3 ⊢; linarith) (by norm_num at t3 ⊢; linarith) hA backAndForth h2 h1
  obtain ⟨s'', k2, k3⟩ := C141_pause hs _ k1 1000
  exact ⟨s, s', s'', hs, k1, k2, k3⟩

end AR
end Verif
