import Verif.Props.Controller
/-!
# C51 — what the two inception calls create
-/
namespace Keriox

theorem incepted_event {env : Env} {sg : SignFn} {km : CryptoBox} {rnd : BasicPrefix × BasicPrefix} {as : List Action} {extra ws : List BasicPrefix}
    {e : SignedEvent} {c : Controller} {db : Db} (h : (Controller.new km rnd).inceptWith env sg extra ws (after env as) = (.ok e, c, db)) :
    e.msg = inceptionMsg env km extra ws ∧ e.sigs.map (·.index) = [0] ∧ e.delegatorSeal = none ∧ c = { Controller.new km rnd with pre := e.pre } := by
  unfold Controller.inceptWith at h
  rw [makeInception_eq] at h
  simp only [Prod.mk.injEq] at h
  obtain ⟨h1, h2, h3⟩ := h
  rw [h1] at h2
  have hsub : ∃ r, (Res.ok (inceptionMsg env km extra ws) >>= (Controller.new km rnd).signEvent env sg) = r ∧ r = .ok e := by
    refine ⟨_, rfl, ?_⟩
    unfold submitOwn at h1
    rw [StM.bind_run] at h1
    simp only [StM.lift] at h1
    revert h1
    cases (Res.ok (inceptionMsg env km extra ws) >>= (Controller.new km rnd).signEvent env sg) with
    | err x => intro h1; cases h1
    | panic => intro h1; cases h1
    | ok e' =>
      intro h1
      dsimp only at h1
      rw [StM.bind_run] at h1
      cases hp : process sled env (.event e') (after env as) with
      | mk r db' =>
        rw [hp] at h1
        cases r with
        | ok a => exact congrArg Res.ok (Res.ok.inj h1)
        | err x => cases h1
        | panic => cases h1
  obtain ⟨r, hr, rfl⟩ := hsub
  rw [Res.ok_bind] at hr
  unfold Controller.signEvent at hr
  obtain ⟨b, -, hr⟩ := Res.bind_eq_ok.1 hr
  obtain ⟨s, -, hr⟩ := Res.bind_eq_ok.1 hr
  cases hr
  exact ⟨rfl, rfl, rfl, h2.symm⟩

/-- **What `incept` creates**: an identifier that is the controller's own key, an inception with this one key, threshold one, a commitment to the next key, the
given witnesses and no anchors or traits; the node then acts for this identifier. -/
theorem C51_incept_creates (env : Env) (sg : SignFn) (km : CryptoBox) (rnd : BasicPrefix × BasicPrefix) (as : List Action) (ws : List BasicPrefix)
    (e : SignedEvent) (c : Controller) (db : Db) (h : (Controller.new km rnd).incept env sg ws (after env as) = (.ok e, c, db)) :
    e.pre = .basic km.key ∧ e.sn = 0 ∧ e.data = .icp ⟨⟨.simple 1, [km.key], some (km.commitment env)⟩, 0, ws, [], []⟩ ∧
    e.sigs.map (·.index) = [0] ∧ e.delegatorSeal = none ∧ c.pre = e.pre ∧ c.km = km := by
  obtain ⟨h1, h2, h3, h4⟩ := incepted_event h
  refine ⟨?_, ?_, ?_, h2, h3, by rw [h4], by rw [h4]; rfl⟩
  · unfold SignedEvent.pre; rw [h1]; rfl
  · unfold SignedEvent.sn; rw [h1]; rfl
  · unfold SignedEvent.data; rw [h1]; rfl

/-- **What `incept_with_extra_keys` creates**: the same with the extra keys after the controller's own, threshold one and no witnesses; with at least one extra key
the identifier is a digest. -/
theorem C51_incept_extra_creates (env : Env) (sg : SignFn) (km : CryptoBox) (rnd : BasicPrefix × BasicPrefix) (as : List Action) (extra : List BasicPrefix)
    (e : SignedEvent) (c : Controller) (db : Db) (h : (Controller.new km rnd).inceptExtra env sg extra (after env as) = (.ok e, c, db)) :
    (extra ≠ [] → ∃ d, e.pre = .selfAddressing d) ∧ e.sn = 0 ∧
    e.data = .icp ⟨⟨.simple 1, km.key :: extra, some (km.commitment env)⟩, 0, [], [], []⟩ ∧
    e.sigs.map (·.index) = [0] ∧ e.delegatorSeal = none ∧ c.pre = e.pre ∧ c.km = km := by
  obtain ⟨h1, h2, h3, h4⟩ := incepted_event h
  refine ⟨?_, ?_, ?_, h2, h3, by rw [h4], by rw [h4]; rfl⟩
  · intro hx
    unfold SignedEvent.pre; rw [h1]
    cases extra with
    | nil => exact absurd rfl hx
    | cons a t => exact ⟨_, rfl⟩
  · unfold SignedEvent.sn; rw [h1]; cases extra <;> rfl
  · unfold SignedEvent.data; rw [h1]; cases extra <;> rfl

example : (((Controller.new Ex.km (Ex.key 90, Ex.key 91)).incept Ex.env Ex.sg [Ex.key 51] (after Ex.env Ex.hist)).1.isOk = true) ∧
    (((Controller.new Ex.km (Ex.key 90, Ex.key 91)).inceptExtra Ex.env Ex.sg [Ex.key 50] (after Ex.env Ex.hist)).1.isOk = true) := by decide +kernel

end Keriox
