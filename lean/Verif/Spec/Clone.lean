import Verif.Model.Clone
/-!
# Specification of independence between models

Which objects belong to a model, and what it means that a change goes through one model only.
-/
namespace Verif.Alias
open Markup

/-- The objects that a model has for itself: the model, its channels, their samples, the arrays and dictionaries of these. -/
def foot (h : Heap) (m : ℕ) : Set ℕ :=
  {x | x = m ∨ x ∈ (h.mdls m).chans ∨ ∃ c ∈ (h.mdls m).chans, ∃ a ∈ (h.chns c).samples,
    x = a ∨ x = (h.smps a).yields ∨ x = (h.smps a).impacts}

/-- The POIs, NPs and aux. observables of a model. -/
def params (h : Heap) (m : ℕ) : Set ℕ :=
  {x | x ∈ (h.mdls m).pois ∨ x ∈ (h.mdls m).aux ∨ x ∈ (h.mdls m).nps}

/-- A model of the heap: all its objects exist. -/
structure Allocated (h : Heap) (m : ℕ) : Prop where
  foot : ∀ x ∈ foot h m, x < h.next
  params : ∀ x ∈ params h m, x < h.next

/-- No object at `x` was changed. -/
structure Same (h h' : Heap) (x : ℕ) : Prop where
  arr : h'.arrs x = h.arrs x
  imp : h'.imps x = h.imps x
  smp : h'.smps x = h.smps x
  chn : h'.chns x = h.chns x
  mdl : h'.mdls x = h.mdls x

/-- A change through the model `m`: only objects of the model are written to, POIs, NPs and aux. observables are not, and
whatever the model gets is one of its objects or a new one. -/
structure Through (h : Heap) (m : ℕ) (h' : Heap) : Prop where
  next : h.next ≤ h'.next
  keeps : ∀ x < h.next, x ∉ foot h m → Same h h' x
  params : ∀ x < h.next, h'.pois x = h.pois x ∧ h'.auxs x = h.auxs x ∧ h'.nps x = h.nps x
  grows : ∀ x ∈ foot h' m, x ∈ foot h m ∨ (h.next ≤ x ∧ x < h'.next)
  uses : Alias.params h' m ⊆ Alias.params h m

/-- The samples of a model. -/
def samplesOf (h : Heap) (m : ℕ) : List ℕ := (h.mdls m).chans.flatMap fun c => (h.chns c).samples

/-- No two samples of the model are one object, or share their dictionary of impacts. -/
structure NoAlias (h : Heap) (m : ℕ) : Prop where
  samples : (samplesOf h m).Nodup
  impacts : ((samplesOf h m).map fun a => (h.smps a).impacts).Nodup

/-- The NPs, and the aux. observables, are in dictionaries by name (core.py:413-420). -/
structure ByName (o : Obj) : Prop where
  nps : (o.doc.nps.map (·.name)).Nodup
  aux : (o.doc.aux.map (·.name)).Nodup

/-- An object on which `set_internal_vars` has run: running it again would change nothing. -/
def IsSetUp (o : Obj) : Prop := initModel (rawDoc o.doc) o.flags = .ok o

end Verif.Alias
