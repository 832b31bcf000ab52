import Verif.Model.Screen
import Mathlib.Tactic.Ring

/-! # C98: the list of frequencies on the screen -/

set_option autoImplicit false

namespace Verif

theorem flatMap_grid (m : ℕ) : ((List.range m).flatMap fun i => (List.range 3).map fun j => (i, j)) = (List.range (3 * m)).map fun k => (k / 3, k % 3) := by
  induction m with
  | zero => rfl
  | succ m ih =>
    rw [List.range_succ (n := m), List.flatMap_append, ih, show 3 * (m + 1) = 3 * m + 1 + 1 + 1 by ring, List.range_succ, List.range_succ, List.range_succ]
    have e1 : (3 * m) / 3 = m := by omega
    have e2 : (3 * m + 1) / 3 = m := by omega
    have e3 : (3 * m + 1 + 1) / 3 = m := by omega
    have e4 : (3 * m) % 3 = 0 := by omega
    have e5 : (3 * m + 1) % 3 = 1 := by omega
    have e6 : (3 * m + 1 + 1) % 3 = 2 := by omega
    simp [List.range_succ, e2, e3, e5, e6]

theorem mapM_option_map {α β γ : Type} (g : α → β) (f : β → Option γ) (l : List α) : (l.map g).mapM f = l.mapM fun a => f (g a) := by
  induction l with
  | nil => rfl
  | cons a l ih => simp [List.mapM_cons, ih]

theorem mapM_option_some {α β : Type} (f : α → Option β) (g : α → β) (l : List α) (h : ∀ a ∈ l, f a = some (g a)) : l.mapM f = some (l.map g) := by
  induction l with
  | nil => rfl
  | cons a l ih =>
    rw [List.mapM_cons, h a (by simp), ih fun b hb => h b (by simp [hb])]
    rfl

theorem mapM_option_none {α β : Type} (f : α → Option β) (l : List α) (a : α) (ha : a ∈ l) (h : f a = none) : l.mapM f = none := by
  induction l with
  | nil => simp at ha
  | cons b l ih =>
    rw [List.mapM_cons]
    rcases List.mem_cons.mp ha with rfl | ha
    · rw [h]; rfl
    · cases hb : f b with
      | none => rfl
      | some v => rw [ih ha]; rfl

/-- C98: option 1 of the harmonic menu lists every frequency once, numbered from 1 in their order, three in a line, no two at the same place, provided that all lines fit on the screen (`posx` is 5). -/
theorem C98_list {K : Type} (height posx posy m : ℕ) (pile : List K) (hlen : pile.length = 3 * m) (hfit : posx + m ≤ height) :
    ∃ items, listOnScreen height pile posx posy = some items ∧ items.length = pile.length ∧ items.map ScreenItem.value = pile ∧
      (∀ (k : ℕ) item, items[k]? = some item → item.number = k + 1 ∧ item.row = posx + k / 3 ∧ item.column = posy + 20 * (k % 3) ∧ item.row < height) ∧
      (items.map fun item => (item.row, item.column)).Nodup := by
  have hm : pile.length / 3 = m := by omega
  have hval : ∀ k (hk : k < 3 * m), pile[3 * (k / 3) + k % 3]? = some (pile[k]'(by omega)) := by
    intro k hk
    rw [Nat.div_add_mod, List.getElem?_eq_getElem (by omega)]
  let g : Fin (3 * m) → ScreenItem K := fun k => ⟨posx + k.1 / 3, posy + k.1 % 3 * 20, k.1 / 3 * 3 + k.1 % 3 + 1, pile[k.1]'(by omega)⟩
  have hres : listOnScreen height pile posx posy = some ((List.finRange (3 * m)).map g) := by
    unfold listOnScreen
    rw [if_neg (by omega), hm, flatMap_grid, mapM_option_map, ← List.map_coe_finRange_eq_range, mapM_option_map]
    apply mapM_option_some
    intro k _
    rw [if_pos (by have := k.2; omega), hval k.1 k.2]
    rfl
  refine ⟨_, hres, by simp [hlen], ?_, ?_, ?_⟩
  · apply List.ext_getElem
    · simp [hlen]
    · intro i h1 h2; simp [g]
  · intro k item hk
    rw [List.getElem?_map, Option.map_eq_some_iff] at hk
    obtain ⟨a, ha, rfl⟩ := hk
    have hka : a.1 = k := by
      obtain ⟨h1, h2⟩ := List.getElem?_eq_some_iff.mp ha
      rw [← h2]; simp
    subst hka
    have := a.2
    refine ⟨?_, rfl, ?_, ?_⟩
    · show a.1 / 3 * 3 + a.1 % 3 + 1 = a.1 + 1; omega
    · show posy + a.1 % 3 * 20 = posy + 20 * (a.1 % 3); omega
    · show posx + a.1 / 3 < height; omega
  · rw [List.map_map]
    apply List.Nodup.map _ (List.nodup_finRange _)
    intro a b hab
    simp only [Function.comp_apply, Prod.mk.injEq, g] at hab
    apply Fin.ext
    omega

/-- C98: the list cannot be shown, and the program stops with an uncaught exception, exactly when the lines do not fit (for a number of frequencies divisible by three). -/
theorem C98_list_fails {K : Type} (height posx posy m : ℕ) (pile : List K) (hlen : pile.length = 3 * m) (hpos : 0 < m) : listOnScreen height pile posx posy = none ↔ height < posx + m := by
  constructor
  · intro h
    by_contra hc
    obtain ⟨items, hi, -⟩ := C98_list height posx posy m pile hlen (by omega)
    rw [hi] at h; simp at h
  · intro h
    have hm : pile.length / 3 = m := by omega
    unfold listOnScreen
    rw [if_neg (by omega), hm]
    apply mapM_option_none _ _ (m - 1, 0)
    · rw [List.mem_flatMap]; exact ⟨m - 1, List.mem_range.mpr (by omega), by simp⟩
    · rw [if_neg (by simp only; omega)]

/-- All frequencies can always be listed: false. With 20 atoms in the primitive cell (60 frequencies) the list, from line 5 on, does not fit on a terminal of 24 lines. -/
theorem C98_list_violated (pile : List ℚ) (h : pile.length = 60) : listOnScreen 24 pile 5 4 = none :=
  (C98_list_fails 24 5 4 20 pile (by omega) (by norm_num)).mpr (by norm_num)

/-- Example: two atoms. -/
example : listOnScreen 24 ["a", "b", "c", "d", "e", "f"] 5 4 =
    some [⟨5, 4, 1, "a"⟩, ⟨5, 24, 2, "b"⟩, ⟨5, 44, 3, "c"⟩, ⟨6, 4, 4, "d"⟩, ⟨6, 24, 5, "e"⟩, ⟨6, 44, 6, "f"⟩] := by decide +kernel

end Verif
