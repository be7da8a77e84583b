import Verif.SpecSound

/-!
Code of the user with side effects but proper answers: the model with a state does what the model without does.
-/

set_option autoImplicit false
set_option linter.unusedSectionVars false

namespace Veb

/-- the same outcome, or a panic in `Us` -/
def Same {σ α : Type} (Us : Panic → Prop) (Q : α → Prop) (y : R (α × σ)) (r : R α) : Prop :=
  (∃ a s', r = .ok a ∧ y = .ok (a, s') ∧ Q a) ∨ ∃ p, y = .error p ∧ (r = .error p ∨ Us p)

/-- `x` does what `r` does, whatever the state, or panics in `Us`; `Q` holds of the result -/
def Follows {σ α : Type} (Us : Panic → Prop) (Q : α → Prop) (x : Act σ α) (r : R α) : Prop := ∀ s, Same Us Q (x s) r

namespace Follows
variable {Us : Panic → Prop} {σ α β : Type} {x : Act σ α} {r : R α} {Q Q' : α → Prop}

theorem ret {a : α} (h : Q a) : Follows Us Q (pure a : Act σ α) (pure a) := fun s => .inl ⟨a, s, rfl, rfl, h⟩
theorem bind {f : α → Act σ β} {g : α → R β} {P : β → Prop} (h : Follows Us Q x r) (h' : ∀ a, Q a → Follows Us P (f a) (g a)) :
    Follows Us P (x >>= f) (r >>= g) := by
  intro s
  rcases h s with ⟨a, s', rfl, h1, hq⟩ | ⟨p, h1, h2⟩
  · have e : (x >>= f) s = f a s' := by
      show (x s >>= fun p => f p.1 p.2) = _
      rw [h1]; rfl
    rw [e]
    exact h' a hq s'
  · refine .inr ⟨p, ?_, ?_⟩
    · show (x s >>= fun p => f p.1 p.2) = _
      rw [h1]; rfl
    · exact h2.imp_left fun h => by rw [h]; rfl
theorem left {a : α} {f : α → Act σ β} {g : R β} {P : β → Prop} (h : AnswersOr Us x a) (h' : Follows Us P (f a) g) :
    Follows Us P (x >>= f) g := by
  intro s
  rcases h s with ⟨s', h1⟩ | ⟨p, h1, h2⟩
  · have e : (x >>= f) s = f a s' := by
      show (x s >>= fun p => f p.1 p.2) = _
      rw [h1]; rfl
    rw [e]
    exact h' s'
  · refine .inr ⟨p, ?_, .inr h2⟩
    show (x s >>= fun p => f p.1 p.2) = _
    rw [h1]; rfl
theorem mono (h : Follows Us Q x r) (i : ∀ a, Q a → Q' a) : Follows Us Q' x r := fun s =>
  (h s).imp_left fun ⟨a, s', h1, h2, h3⟩ => ⟨a, s', h1, h2, i a h3⟩
theorem fail {p : Panic} : Follows Us Q (throw p : Act σ α) (.error p) := fun _ => .inr ⟨p, rfl, .inl rfl⟩
theorem lift {r : R α} (h : ∀ a, r = .ok a → Q a) : Follows Us Q (liftM r : Act σ α) r := by
  intro s
  cases r with
  | error p => exact .inr ⟨p, rfl, .inl rfl⟩
  | ok a => exact .inl ⟨a, s, rfl, rfl, h a rfl⟩
theorem outcome (h : Follows Us Q x r) : OutcomeOr Us x r := fun s =>
  (h s).elim (fun ⟨a, s', h1, h2, _⟩ => .inr ⟨a, s', h2, h1⟩) .inl
/-- what a returning call returns -/
theorem ok (h : Follows Us Q x r) {s s' : σ} {a : α} (hr : x s = .ok (a, s')) : r = .ok a ∧ Q a := by
  rcases h s with ⟨b, u, h1, h2, h3⟩ | ⟨p, h1, -⟩
  · rw [h2] at hr; cases hr; exact ⟨h1, h3⟩
  · rw [h1] at hr; cases hr
theorem lift' {r : R α} : Follows Us (fun _ => True) (liftM r : Act σ α) r := lift fun _ _ => trivial
theorem exp {o : Option α} {m : String} : Follows Us (fun a => o = some a) (liftM (expect m o) : Act σ α) (expect m o) := by
  refine lift fun a h => ?_
  cases o with
  | none => cases h
  | some b => cases h; rfl
theorem ite {p : Prop} [Decidable p] {y : Act σ α} {r' : R α} (h : Follows Us Q x r) (h' : Follows Us Q y r') :
    Follows Us Q (if decide p = true then x else y) (if p then r else r') := by
  by_cases hp : p
  · rw [if_pos (decide_eq_true hp), if_pos hp]; exact h
  · rw [if_neg (by simpa using hp), if_neg hp]; exact h'
theorem ite' {p : Prop} [Decidable p] {y : Act σ α} {r' : R α} (h : p → Follows Us Q x r) (h' : ¬ p → Follows Us Q y r') :
    Follows Us Q (if p then x else y) (if p then r else r') := by
  by_cases hp : p
  · rw [if_pos hp, if_pos hp]; exact h hp
  · rw [if_neg hp, if_neg hp]; exact h' hp
theorem split {K Hi Lo : Type} [LinearOrder K] [VebKey K Hi Lo] [VebKeyRef K Hi Lo] [ActKey σ K Hi Lo]
    (hk : SoundKey σ Us K Hi Lo) {k : K} {f : Hi → Lo → Act σ α}
    (h : Follows Us Q (f (VebKeyRef.splitRef k).1 (VebKeyRef.splitRef k).2) r) : Follows Us Q (withSplit k f) r := by
  refine left (hk.splitRef k) ?_
  have : r = r >>= pure := by cases r <;> rfl
  rw [this]
  exact h.bind fun a ha => left (hk.splitDone k) (.ret ha)
end Follows

theorem AlwaysAnswers.or {σ α : Type} {Us : Panic → Prop} {x : Act σ α} {a : α} (h : AlwaysAnswers x a) : AnswersOr Us x a :=
  fun s => .inl (h s)

/-- an optional tree is good -/
def AllO {T : Type} (W : T → Prop) (o : Option T) : Prop := ∀ t, o = some t → W t
theorem allO_none {T : Type} {W : T → Prop} : AllO W none := by rintro t ⟨⟩
theorem allO_some {T : Type} {W : T → Prop} {t : T} (h : W t) : AllO W (some t) := by rintro _ ⟨⟩; exact h
/-- writing leaves a good tree -/
def PutO {T K V : Type} (W : T → Prop) (o : Option (K × V × (V → T))) : Prop := ∀ p, o = some p → ∀ w, W (p.2.2 w)
theorem putO_none {T K V : Type} {W : T → Prop} : PutO W (none : Option (K × V × (V → T))) := by rintro t ⟨⟩
theorem putO_some {T K V : Type} {W : T → Prop} {p : K × V × (V → T)} (h : ∀ w, W (p.2.2 w)) : PutO W (some p) := by
  rintro _ ⟨⟩; exact h
/-- what a removal leaves is good -/
def RemO {T K V : Type} (W : T → Prop) : Result (Option T × (K × V)) T → Prop
  | .Ok r => AllO W r.1
  | .Err t => W t

/-- `ActTree` and `VebTree` do the same on good trees, and leave good trees. -/
class HTree (Us : Panic → Prop) (σ T : Type) (K V : outParam Type) [A : ActTree σ T K V] [B : VebTree T K V] where
  W : T → Prop
  fromMonad : ∀ k v, A.fromMonad k v = B.fromMonad k v ∧ W (B.fromMonad k v)
  isMonad : ∀ t, W t → Follows Us (fun _ => True) (A.isMonad t) (B.isMonad t)
  lenHint : ∀ t, W t → Follows Us (fun _ => True) (A.lenHint t) (B.lenHint t)
  intoMonad : ∀ t, W t → Follows Us (fun r => ∀ u, r = .Err u → W u) (A.intoMonad t) (B.intoMonad t)
  minVal : ∀ t, W t → Follows Us (fun _ => True) (A.minVal t) (B.minVal t)
  minValMut : ∀ t, W t → Follows Us (fun r => ∀ w, W (r.2.2 w)) (A.minValMut t) (B.minValMut t)
  maxVal : ∀ t, W t → Follows Us (fun _ => True) (A.maxVal t) (B.maxVal t)
  maxValMut : ∀ t, W t → Follows Us (fun r => ∀ w, W (r.2.2 w)) (A.maxValMut t) (B.maxValMut t)
  find : ∀ t k, W t → Follows Us (fun _ => True) (A.find t k) (B.find t k)
  findMut : ∀ t k, W t → Follows Us (PutO W) (A.findMut t k) (B.findMut t k)
  predecessor : ∀ t k, W t → Follows Us (fun _ => True) (A.predecessor t k) (B.predecessor t k)
  predecessorMut : ∀ t k, W t → Follows Us (PutO W) (A.predecessorMut t k) (B.predecessorMut t k)
  successor : ∀ t k, W t → Follows Us (fun _ => True) (A.successor t k) (B.successor t k)
  successorMut : ∀ t k, W t → Follows Us (PutO W) (A.successorMut t k) (B.successorMut t k)
  insert : ∀ t k v, W t → Follows Us (fun r => W r.1) (A.insert t k v) (B.insert t k v)
  remove : ∀ t k, W t → Follows Us (RemO W) (A.remove t k) (B.remove t k)
  removeMin : ∀ t, W t → Follows Us (fun r => AllO W r.1) (A.removeMin t) (B.removeMin t)
  removeMax : ∀ t, W t → Follows Us (fun r => AllO W r.1) (A.removeMax t) (B.removeMax t)

/-- `ActColl` and `TreeCollection` do the same. -/
class HColl (Us : Panic → Prop) (σ C : Type) (Hi T Lo V : outParam Type) [ActTree σ T Lo V] [VebTree T Lo V] [P : HTree Us σ T Lo V]
    [A : ActColl σ C Hi T Lo V] [B : TreeCollection C Hi T Lo V] where
  W : C → Prop
  create : ∀ h t, P.W t → Follows Us W (A.create h t) (B.create h t)
  get : ∀ c h, W c → Follows Us (AllO P.W) (A.get c h) (B.get c h)
  getMut : ∀ c h, W c → Follows Us (fun o => ∀ p, o = some p → P.W p.1 ∧ ∀ u, P.W u → W (p.2 u)) (A.getMut c h) (B.getMut c h)
  insertKey : ∀ c h e, W c → Follows Us (fun r => W r.1) (A.insertKey c h e) (B.insertKey c h e)
  removeKey : ∀ c h f g, W c → (∀ t, P.W t → Follows Us (fun r => AllO P.W r.1) (f t) (g t)) →
    Follows Us (fun r => AllO (fun p : C × Bool => W p.1) r.1) (A.removeKey c h f) (B.removeKey c h g)
  maybeRemoveKey : ∀ c h f g, W c → (∀ t, P.W t → Follows Us (RemO P.W) (f t) (g t)) →
    Follows Us (fun r => match r with
      | .Ok r => AllO (fun p : C × Bool => W p.1) r.1
      | .Err c => W c) (A.maybeRemoveKey c h f) (B.maybeRemoveKey c h g)

namespace HTree
variable {Us : Panic → Prop}

/-- code without a state -/
@[reducible] def plain (σ : Type) {T K V : Type} [VebTree T K V] : @HTree Us σ T K V (ActTree.plain σ) _ :=
  letI : ActTree σ T K V := ActTree.plain σ
  { W := fun _ => True
    fromMonad := fun _ _ => ⟨rfl, trivial⟩
    isMonad := fun _ _ => .lift'
    lenHint := fun _ _ => .lift'
    intoMonad := fun _ _ => .lift fun _ _ _ _ => trivial
    minVal := fun _ _ => .lift'
    minValMut := fun _ _ => .lift fun _ _ _ => trivial
    maxVal := fun _ _ => .lift'
    maxValMut := fun _ _ => .lift fun _ _ _ => trivial
    find := fun _ _ _ => .lift'
    findMut := fun _ _ _ => .lift fun _ _ _ _ _ => trivial
    predecessor := fun _ _ _ => .lift'
    predecessorMut := fun _ _ _ => .lift fun _ _ _ _ _ => trivial
    successor := fun _ _ _ => .lift'
    successorMut := fun _ _ _ => .lift fun _ _ _ _ _ => trivial
    insert := fun _ _ _ _ => .lift'
    remove := fun _ _ _ => .lift fun r _ => by cases r <;> first | trivial | exact fun _ _ => trivial
    removeMin := fun _ _ => .lift fun _ _ _ _ => trivial
    removeMax := fun _ _ => .lift fun _ _ _ _ => trivial }

variable {σ T K V : Type} [ActTree σ T K V] [VebTree T K V] [P : HTree Us σ T K V]

theorem map_put {T' : Type} {W' : T' → Prop} {f : T → T'} (hf : ∀ t, P.W t → W' (f t)) {o : Option (K × V × (V → T))}
    (h : PutO P.W o) : PutO W' (o.map (mapPut f)) := by
  cases o with
  | none => exact putO_none
  | some p => exact putO_some fun w => hf _ (h p rfl w)

instance instBox : HTree Us σ (Box T) K V where
  W t := P.W t.val
  fromMonad k v := ⟨congrArg Box.mk (P.fromMonad k v).1, (P.fromMonad k v).2⟩
  isMonad t I := P.isMonad t.val I
  lenHint t I := P.lenHint t.val I
  intoMonad t I := (P.intoMonad t.val I).bind fun r hr => by
    cases r with
    | Ok e => exact .ret (by rintro _ ⟨⟩)
    | Err u => exact .ret (by rintro _ ⟨⟩; exact hr u rfl)
  minVal t I := P.minVal t.val I
  minValMut t I := (P.minValMut t.val I).bind fun r hr => .ret hr
  maxVal t I := P.maxVal t.val I
  maxValMut t I := (P.maxValMut t.val I).bind fun r hr => .ret hr
  find t k I := P.find t.val k I
  findMut t k I := (P.findMut t.val k I).bind fun r hr => .ret (map_put (f := Box.mk) (fun _ h => h) hr)
  predecessor t k I := P.predecessor t.val k I
  predecessorMut t k I := (P.predecessorMut t.val k I).bind fun r hr => .ret (map_put (f := Box.mk) (fun _ h => h) hr)
  successor t k I := P.successor t.val k I
  successorMut t k I := (P.successorMut t.val k I).bind fun r hr => .ret (map_put (f := Box.mk) (fun _ h => h) hr)
  insert t k v I := (P.insert t.val k v I).bind fun r hr => .ret hr
  remove t k I := (P.remove t.val k I).bind fun r hr => by
    obtain ⟨_ | u, e⟩ | u := r
    · exact .ret allO_none
    · exact .ret (allO_some (hr u rfl))
    · exact .ret hr
  removeMin t I := (P.removeMin t.val I).bind fun r hr => by
    obtain ⟨_ | u, e⟩ := r
    · exact .ret allO_none
    · exact .ret (allO_some (hr u rfl))
  removeMax t I := (P.removeMax t.val I).bind fun r hr => by
    obtain ⟨_ | u, e⟩ := r
    · exact .ret allO_none
    · exact .ret (allO_some (hr u rfl))

instance instSized : HTree Us σ (SizedVebTree T) K V where
  W t := P.W t.tree
  fromMonad k v := ⟨congrArg (SizedVebTree.mk · 1) (P.fromMonad k v).1, (P.fromMonad k v).2⟩
  isMonad t I := (P.isMonad t.tree I).bind fun b _ => by
    cases b with
    | false => exact .ret trivial
    | true => exact Follows.lift'.bind fun _ _ => .ret trivial
  lenHint t I := .ret trivial
  intoMonad t I := (P.intoMonad t.tree I).bind fun r hr => by
    cases r with
    | Ok e => exact .ret (by rintro _ ⟨⟩)
    | Err u => exact .ret (by rintro _ ⟨⟩; exact hr u rfl)
  minVal t I := P.minVal t.tree I
  minValMut t I := (P.minValMut t.tree I).bind fun r hr => .ret hr
  maxVal t I := P.maxVal t.tree I
  maxValMut t I := (P.maxValMut t.tree I).bind fun r hr => .ret hr
  find t k I := P.find t.tree k I
  findMut t k I := (P.findMut t.tree k I).bind fun r hr => .ret (map_put (f := fun u => { t with tree := u }) (fun _ h => h) hr)
  predecessor t k I := P.predecessor t.tree k I
  predecessorMut t k I := (P.predecessorMut t.tree k I).bind fun r hr => .ret (map_put (f := fun u => { t with tree := u }) (fun _ h => h) hr)
  successor t k I := P.successor t.tree k I
  successorMut t k I := (P.successorMut t.tree k I).bind fun r hr => .ret (map_put (f := fun u => { t with tree := u }) (fun _ h => h) hr)
  insert t k v I := (P.insert t.tree k v I).bind fun r hr => by
    obtain ⟨u, _ | e⟩ := r
    · exact Follows.lift'.bind fun _ _ => .ret hr
    · exact .ret hr
  remove t k I := (P.remove t.tree k I).bind fun r hr => by
    obtain ⟨_ | u, e⟩ | u := r
    · exact .ret allO_none
    · exact Follows.lift'.bind fun _ _ => Follows.lift'.bind fun _ _ => .ret (allO_some (hr u rfl))
    · exact .ret hr
  removeMin t I := Follows.lift'.bind fun _ _ => (P.removeMin t.tree I).bind fun r hr => by
    obtain ⟨_ | u, e⟩ := r
    · exact .ret allO_none
    · exact Follows.lift'.bind fun _ _ => .ret (allO_some (hr u rfl))
  removeMax t I := Follows.lift'.bind fun _ _ => (P.removeMax t.tree I).bind fun r hr => by
    obtain ⟨_ | u, e⟩ := r
    · exact .ret allO_none
    · exact Follows.lift'.bind fun _ _ => .ret (allO_some (hr u rfl))

end HTree
end Veb
