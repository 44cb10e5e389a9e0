import Verif.Model.Starting
import Verif.Spec.Desk
/-!
# Vocabulary for what the bridge has published when its start fails
-/

namespace Elk.Spec

/-- The things done at the start. -/
inductive StartStep where
  | code
  | areaDoc (ha : Bytes) (a : UInt8 × AreaCfg)
  | zoneDoc (ha : Bytes) (a : UInt8 × ZoneCfg)
  | area (a : UInt8 × AreaCfg)
  | zone (a : UInt8 × ZoneCfg)
  | subscribe
  | online

/-- In this order. -/
def startPlan (cfg : Cfg) : List StartStep :=
  .code :: ((match cfg.mqtt.haDiscoveryPrefix with
    | some ha => cfg.elk.areas.map (.areaDoc ha) ++ cfg.elk.zones.map (.zoneDoc ha)
    | none => []) ++ (cfg.elk.areas.map .area ++ (cfg.elk.zones.map .zone ++ [.subscribe, .online])))

/-- What it takes for each not to fail. -/
def Passes (cfg : Cfg) : StartStep → Prop
  | .code => cfg.elk.code.toNat < 1000000
  | .areaDoc ha _ => NoWildcard ha ∧ NoWildcard cfg.elk.serialNumber
  | .zoneDoc ha _ => NoWildcard ha ∧ NoWildcard cfg.elk.serialNumber
  | .area a => (1 ≤ a.1.toNat ∧ a.1.toNat ≤ 8) ∧ NoWildcard cfg.prefix ∧ NoWildcard a.2.name
  | .zone a => (1 ≤ a.1.toNat ∧ a.1.toNat ≤ 208) ∧ NoWildcard cfg.prefix ∧ NoWildcard a.2.name
  | .subscribe => cfg.elk.areas ≠ []
  | .online => NoWildcard cfg.prefix

/-- What each asks the client for. -/
inductive Asking (cfg : Cfg) (v : View) : StartStep → List ClientReq → Prop
  | code : Asking cfg v .code []
  | areaDoc {ha a} : Asking cfg v (.areaDoc ha a) [.publish (areaDoc cfg ha a)]
  | zoneDoc {ha a} : Asking cfg v (.zoneDoc ha a) [.publish (zoneDoc cfg ha a)]
  | area {a m} : AreaLine cfg.prefix v.shown a m → Asking cfg v (.area a) [.publish m]
  | zone {a m} : ZoneLine cfg.prefix v.zones a m → Asking cfg v (.zone a) [.publish m]
  | subscribe : Asking cfg v .subscribe [.subscribe (cfg.elk.areas.map fun a =>
      cfg.prefix ++ bs "/area/" ++ a.2.name ++ bs "/ha_command")]
  | online : Asking cfg v .online
      [.publish ⟨cfg.prefix ++ bs "/availability", true, .text (bs "online")⟩]

/-- What is asked for in all, up to the first thing that fails, and whether nothing does. -/
inductive Unfolds (cfg : Cfg) (v : View) : List StartStep → List ClientReq → Bool → Prop
  | done : Unfolds cfg v [] [] true
  | fails {s l} : ¬ Passes cfg s → Unfolds cfg v (s :: l) [] false
  | goes {s l rs rs' ok} : Passes cfg s → Asking cfg v s rs → Unfolds cfg v l rs' ok →
      Unfolds cfg v (s :: l) (rs ++ rs') ok

/-- The start after so many things have happened. -/
def Startup.after (s : Startup) (ops : Nat → StartupOp) : Nat → Startup
  | 0 => s
  | n + 1 => (Startup.after s ops n).step (ops n)

/-- `inner` is polled again and again, and requests are transmitted again and again. -/
def KeepsOn (ops : Nat → StartupOp) : Prop :=
  ∀ n, (∃ m, n ≤ m ∧ ops m = .poll) ∧ ∃ m, n ≤ m ∧ ops m = .transmit

/-- How many requests can have been transmitted when a start fails that has made `n`. -/
def CanBeOut (n k : Nat) : Prop := (n ≤ 10 → k = 0) ∧ (10 < n → n - 10 ≤ k ∧ k < n)

end Elk.Spec
