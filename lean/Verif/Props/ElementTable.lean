import Verif.Model.Elements
import Verif.Model.Text

/-! # C09: the table of the elements, as it is printed in the literature -/

set_option autoImplicit false

namespace Verif

/-- Specification: the symbols of the elements by atomic number, with the standard atomic weights as decimal numbers (the row of number 0 is a dummy; 0 means that no weight is known). -/
def standardWeights : List (String × String) := [
  ("X", "0"), ("H", "1.00794"), ("He", "4.002602"), ("Li", "6.941"), ("Be", "9.012182"), ("B", "10.811"), ("C", "12.0107"), ("N", "14.0067"), ("O", "15.9994"),
  ("F", "18.9984032"), ("Ne", "20.1797"), ("Na", "22.98976928"), ("Mg", "24.3050"), ("Al", "26.9815386"), ("Si", "28.0855"), ("P", "30.973762"), ("S", "32.065"), ("Cl", "35.453"),
  ("Ar", "39.948"), ("K", "39.0983"), ("Ca", "40.078"), ("Sc", "44.955912"), ("Ti", "47.867"), ("V", "50.9415"), ("Cr", "51.9961"), ("Mn", "54.938045"), ("Fe", "55.845"),
  ("Co", "58.933195"), ("Ni", "58.6934"), ("Cu", "63.546"), ("Zn", "65.38"), ("Ga", "69.723"), ("Ge", "72.64"), ("As", "74.92160"), ("Se", "78.96"), ("Br", "79.904"),
  ("Kr", "83.798"), ("Rb", "85.4678"), ("Sr", "87.62"), ("Y", "88.90585"), ("Zr", "91.224"), ("Nb", "92.90638"), ("Mo", "95.96"), ("Tc", "0"), ("Ru", "101.07"),
  ("Rh", "102.90550"), ("Pd", "106.42"), ("Ag", "107.8682"), ("Cd", "112.411"), ("In", "114.818"), ("Sn", "118.710"), ("Sb", "121.760"), ("Te", "127.60"), ("I", "126.90447"),
  ("Xe", "131.293"), ("Cs", "132.9054519"), ("Ba", "137.327"), ("La", "138.90547"), ("Ce", "140.116"), ("Pr", "140.90765"), ("Nd", "144.242"), ("Pm", "0"), ("Sm", "150.36"),
  ("Eu", "151.964"), ("Gd", "157.25"), ("Tb", "158.92535"), ("Dy", "162.500"), ("Ho", "164.93032"), ("Er", "167.259"), ("Tm", "168.93421"), ("Yb", "173.054"), ("Lu", "174.9668"),
  ("Hf", "178.49"), ("Ta", "180.94788"), ("W", "183.84"), ("Re", "186.207"), ("Os", "190.23"), ("Ir", "192.217"), ("Pt", "195.084"), ("Au", "196.966569"), ("Hg", "200.59"),
  ("Tl", "204.3833"), ("Pb", "207.2"), ("Bi", "208.98040"), ("Po", "0"), ("At", "0"), ("Rn", "0"), ("Fr", "0"), ("Ra", "0"), ("Ac", "0"), ("Th", "232.03806"), ("Pa", "231.03588"),
  ("U", "238.02891"), ("Np", "0"), ("Pu", "0"), ("Am", "0"), ("Cm", "0"), ("Bk", "0"), ("Cf", "0"), ("Es", "0"), ("Fm", "0"), ("Md", "0"), ("No", "0"), ("Lr", "0"), ("Rf", "0"),
  ("Db", "0"), ("Sg", "0"), ("Bh", "0"), ("Hs", "0"), ("Mt", "0"), ("Ds", "0"), ("Rg", "0"), ("Cn", "0"), ("Uut", "0"), ("Uuq", "0"), ("Uup", "0"), ("Uuh", "0"), ("Uus", "0"),
  ("Uuo", "0")]

set_option maxRecDepth 20000 in
/-- **C09**: the table in which elements and masses are looked up has, for every atomic number from 1 to 118, the symbol of the element and its standard weight, to the last digit. -/
theorem C09_table : atomData.length = 119 ∧ ∀ z < 119, ∃ symbol text, standardWeights[z]? = some (symbol, text) ∧ ∃ m : ℚ, pyFloat text.toList = some m ∧ atomData[z]? = some (symbol, m) := by
  have h : standardWeights.map (fun r => (some r.1, (pyFloat r.2.toList : Option ℚ))) = atomData.map fun r => (some r.1, some r.2) := by decide +kernel
  have hl : standardWeights.length = 119 := by decide +kernel
  have hl2 : atomData.length = 119 := by decide +kernel
  refine ⟨hl2, fun z hz => ?_⟩
  have h1 := congrArg (fun l => l[z]?) h
  simp only [List.getElem?_map] at h1
  obtain ⟨a, ha⟩ : ∃ a, standardWeights[z]? = some a := ⟨_, List.getElem?_eq_getElem (by rw [hl]; exact hz)⟩
  obtain ⟨b, hb⟩ : ∃ b, atomData[z]? = some b := ⟨_, List.getElem?_eq_getElem (by rw [hl2]; exact hz)⟩
  rw [ha, hb] at h1
  simp only [Option.map_some, Option.some.injEq, Prod.mk.injEq] at h1
  exact ⟨a.1, a.2, ha, b.2, h1.2, by rw [hb, h1.1]⟩

end Verif
