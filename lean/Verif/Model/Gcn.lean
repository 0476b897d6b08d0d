import Mathlib.Analysis.SpecialFunctions.Log.Basic
import Mathlib.Analysis.Real.Sqrt
import Mathlib.Algebra.BigOperators.Fin

/-!
# Model of the graph convolutional network (models/gcn_layers.py, models/gcn_model.py)

Tensors are functions of their indices, with real entries: no rounding, no overflow of `exp`. The weights are arbitrary. A tensor of the shape `B x V x H` is a function of the position in the
mini-batch, the node and the feature. PyTorch checks the shapes at run time; here they are types, so the errors of wrong shapes are not modelled. `hidden_dim` is even (`k + k`): with an odd one the
concatenation of the two embeddings of `hidden_dim // 2` features does not have the width that the layers expect.
-/
namespace Verif.Gcn
set_option autoImplicit false

noncomputable section

/-- `B x V x H` -/
abbrev NodeTensor (B n h : Nat) := Fin B → Fin n → Fin h → ℝ
/-- `B x V x V x H` -/
abbrev EdgeTensor (B n h : Nat) := Fin B → Fin n → Fin n → Fin h → ℝ

/-- `nn.Linear(i, o, True)`, used in gcn_layers.py:65-66, 96-97, 166-168 -/
structure Linear (i o : Nat) where
  weight : Fin o → Fin i → ℝ
  bias : Fin o → ℝ

/-- the forward pass of `nn.Linear` on one vector -/
def Linear.app {i o : Nat} (l : Linear i o) (x : Fin i → ℝ) : Fin o → ℝ := fun a => (∑ b, l.weight a b * x b) + l.bias a

/-- `F.sigmoid`, gcn_layers.py:142 -/
def sigmoid (t : ℝ) : ℝ := 1 / (1 + Real.exp (-t))

/-- `F.relu`, gcn_layers.py:149-150, 181 -/
def relu (t : ℝ) : ℝ := max t 0

/-- the affine parameters of `nn.BatchNorm1d` and `nn.BatchNorm2d`, gcn_layers.py:14, 36 -/
structure BatchNorm (h : Nat) where
  gamma : Fin h → ℝ
  beta : Fin h → ℝ

/-- one channel of a batch normalization with `track_running_stats=False`: the statistics are those of the values of the mini-batch (biased variance, `eps = 1e-5`), in evaluation too -/
def normalize (gamma beta mean var t : ℝ) : ℝ := (t - mean) / Real.sqrt (var + 1 / 100000) * gamma + beta

/-- `BatchNormNode.forward`, gcn_layers.py:16-27: the channels are the features, the mean goes over the mini-batch and the nodes -/
def BatchNorm.node {B n h : Nat} (bn : BatchNorm h) (x : NodeTensor B n h) : NodeTensor B n h := fun b i c =>
  let mean := (∑ b', ∑ i', x b' i' c) / ((B : ℝ) * n)
  let var := (∑ b', ∑ i', (x b' i' c - mean) ^ 2) / ((B : ℝ) * n)
  normalize (bn.gamma c) (bn.beta c) mean var (x b i c)

/-- `BatchNormEdge.forward`, gcn_layers.py:38-49: the two transpositions exchange the first node and the feature and back, so the channels are the features -/
def BatchNorm.edge {B n h : Nat} (bn : BatchNorm h) (e : EdgeTensor B n h) : EdgeTensor B n h := fun b i j c =>
  let mean := (∑ b', ∑ j', ∑ i', e b' i' j' c) / ((B : ℝ) * n * n)
  let var := (∑ b', ∑ j', ∑ i', (e b' i' j' c - mean) ^ 2) / ((B : ℝ) * n * n)
  normalize (bn.gamma c) (bn.beta c) mean var (e b i j c)

/-- the parameter `aggregation`, gcn_layers.py:62-64 -/
inductive Aggregation | mean | sum

/-- `NodeFeatures`, gcn_layers.py:62-66 -/
structure NodeFeatures (h : Nat) where
  aggregation : Aggregation
  U : Linear h h
  V : Linear h h

/-- `NodeFeatures.forward`, gcn_layers.py:68-85; `Vx.unsqueeze(1)` is indexed by the second node -/
def NodeFeatures.forward {B n h : Nat} (l : NodeFeatures h) (x : NodeTensor B n h) (gate : EdgeTensor B n h) : NodeTensor B n h := fun b i c =>
  let gateVx : Fin n → ℝ := fun j => gate b i j c * l.V.app (x b j) c
  match l.aggregation with
  | .mean => l.U.app (x b i) c + (∑ j, gateVx j) / (1 / 10 ^ 20 + ∑ j, gate b i j c)
  | .sum => l.U.app (x b i) c + ∑ j, gateVx j

/-- `EdgeFeatures`, gcn_layers.py:94-97 -/
structure EdgeFeatures (h : Nat) where
  U : Linear h h
  V : Linear h h

/-- `EdgeFeatures.forward`, gcn_layers.py:99-113 -/
def EdgeFeatures.forward {B n h : Nat} (l : EdgeFeatures h) (x : NodeTensor B n h) (e : EdgeTensor B n h) : EdgeTensor B n h := fun b i j c =>
  l.U.app (e b i j) c + l.V.app (x b i) c + l.V.app (x b j) c

/-- `ResidualGatedGCNLayer`, gcn_layers.py:120-125 -/
structure Layer (h : Nat) where
  nodeFeat : NodeFeatures h
  edgeFeat : EdgeFeatures h
  bnNode : BatchNorm h
  bnEdge : BatchNorm h

/-- `ResidualGatedGCNLayer.forward`, gcn_layers.py:127-154 -/
def Layer.forward {B n h : Nat} (l : Layer h) (xe : NodeTensor B n h × EdgeTensor B n h) : NodeTensor B n h × EdgeTensor B n h :=
  let eTmp := l.edgeFeat.forward xe.1 xe.2
  let gate : EdgeTensor B n h := fun b i j c => sigmoid (eTmp b i j c)
  let xTmp := l.nodeFeat.forward xe.1 gate
  let eBn := l.bnEdge.edge eTmp
  let xBn := l.bnNode.node xTmp
  (fun b i c => xe.1 b i c + relu (xBn b i c), fun b i j c => xe.2 b i j c + relu (eBn b i j c))

/-- `MLP`, gcn_layers.py:161-168 -/
structure Mlp (h o : Nat) where
  U : List (Linear h h)
  V : Linear h o

/-- `MLP.forward` on one vector, gcn_layers.py:170-183 -/
def Mlp.forward {h o : Nat} (m : Mlp h o) (x : Fin h → ℝ) : Fin o → ℝ := m.V.app (m.U.foldl (fun y l => fun c => relu (l.app y c)) x)

/-- the weights of `ResidualGatedGCNModel`, gcn_model.py:17-43 -/
structure Net (d v k o : Nat) where
  coordEmb : Fin (k + k) → Fin d → ℝ
  valueEmb : Fin k → ℝ
  tagEmb : Fin v → Fin k → ℝ
  layers : List (Layer (k + k))
  mlp : Mlp (k + k) o

/-- the inputs of the forward pass that are used, gcn_model.py:45-52: `x_edges`, `x_edges_values`, `x_nodes_coord` (`x_nodes` is not) -/
structure Input (B n d v : Nat) where
  edges : Fin B → Fin n → Fin n → Fin v
  values : Fin B → Fin n → Fin n → ℝ
  coord : Fin B → Fin n → Fin d → ℝ

/-- the two embeddings, gcn_model.py:63-66 -/
def Net.embed {B n d v k o : Nat} (w : Net d v k o) (x : Input B n d v) : NodeTensor B n (k + k) × EdgeTensor B n (k + k) :=
  (fun b i c => ∑ a, w.coordEmb c a * x.coord b i a,
   fun b i j => Fin.append (fun c => w.valueEmb c * x.values b i j) (w.tagEmb (x.edges b i j)))

/-- the predictions of `ResidualGatedGCNModel.forward`, gcn_model.py:45-71 -/
def Net.forward {B n d v k o : Nat} (w : Net d v k o) (x : Input B n d v) : EdgeTensor B n o := fun b i j =>
  w.mlp.forward ((w.layers.foldl (fun xe l => l.forward xe) (w.embed x)).2 b i j)

/-- `F.softmax` over the last dimension -/
def softmax {o : Nat} (y : Fin o → ℝ) : Fin o → ℝ := fun c => Real.exp (y c) / ∑ c', Real.exp (y c')

/-- `F.log_softmax` over the last dimension, model_utils.py:43 -/
def logSoftmax {o : Nat} (y : Fin o → ℝ) : Fin o → ℝ := fun c => y c - Real.log (∑ c', Real.exp (y c'))

/-- the probabilities that `compute_prob` returns, main.py:93-96 (two classes, `voc_edges_out = 2`) -/
def Net.edgeProb {B n d v k : Nat} (w : Net d v k 2) (x : Input B n d v) : Fin B → Fin n → Fin n → ℝ := fun b i j => softmax (w.forward x b i j) 1

/-- `loss_edges`, model_utils.py:29-46: `NLLLoss` with class weights is the weighted mean over all the entries -/
def lossEdges {B n o : Nat} (pred : EdgeTensor B n o) (target : Fin B → Fin n → Fin n → Fin o) (cw : Fin o → ℝ) : ℝ :=
  (∑ b, ∑ i, ∑ j, -(cw (target b i j) * logSoftmax (pred b i j) (target b i j))) / ∑ b, ∑ i, ∑ j, cw (target b i j)

/-- `compute_class_weight("balanced", ...)`, main.py:89-91, when both classes occur: the number of labels divided by the number of classes and by the number of labels of the class -/
def balanced {B n : Nat} (target : Fin B → Fin n → Fin n → Fin 2) (c : Fin 2) : ℝ :=
  ((B : ℝ) * n * n) / (2 * ∑ b, ∑ i, ∑ j, if target b i j = c then 1 else 0)

/-- a tag of the input graph, google_tsp_reader.py:65-76: 2 on the diagonal, 1 for the chosen neighbours, 0 otherwise; the row `i` of `near` is the set of the chosen neighbours of `i` -/
def tag {n : Nat} (near : Fin n → Fin n → Prop) [∀ i j, Decidable (near i j)] (i j : Fin n) : Fin 3 := if i = j then 2 else if near i j then 1 else 0

/-- the distance of two cities, google_tsp_reader.py:62 -/
def cityDist (a b : ℝ × ℝ) : ℝ := Real.sqrt ((a.1 - b.1) ^ 2 + (a.2 - b.2) ^ 2)

/-- the input that the reader makes of the lines of a mini-batch, google_tsp_reader.py:54-76, for the chosen neighbours of each instance; `compute_prob` has one line (`batch_size = 1`, main.py:401) -/
def readerInput {B n : Nat} (cities : Fin B → Fin n → ℝ × ℝ) (near : Fin B → Fin n → Fin n → Prop) [∀ b i j, Decidable (near b i j)] : Input B n 2 3 where
  edges b i j := tag (near b) i j
  values b i j := cityDist (cities b i) (cities b j)
  coord b i := ![(cities b i).1, (cities b i).2]

end
end Verif.Gcn
