from fractions import Fraction as Fr
from math import comb
# polynomials in w=z^2: p_n(w)=(2-w)^2(8-w)(1-w)^n ; M_n=int_{.95}^1 z p_n(z^2) artanh z dz
def mul(a,b):
    r=[Fr(0)]*(len(a)+len(b)-1)
    for i,x in enumerate(a):
        for j,y in enumerate(b): r[i+j]+=x*y
    return r
z0=Fr(95,100)
def ev(p,x):
    s=Fr(0)
    for c in reversed(p): s=s*x+c
    return s
# log39 high precision
def logr(num,den,N=60):
    x=Fr(num-den,num+den); return 2*sum(x**(2*k+1)/(2*k+1) for k in range(N))
log39=5*logr(2,1)+logr(39,32)
def M(n):
    # use e=1-z^2: p = (1+e)^2 (7+e) e^n ; z dz = -de/2 ; G(e)=int_0^e (1+t)^2(7+t)t^n dt /2 ; M = int_{z0}^1 artanh dF, F=-G(e(z))
    # M = [F artanh]_{z0}^1 - int F/(1-z^2) dz = G(e0) artanh z0 + int_{z0}^1 G(e)/e dz
    p=mul(mul([Fr(1),Fr(1)],[Fr(1),Fr(1)]),[Fr(7),Fr(1)])
    G=[Fr(0)]*(n+1)+[c/(2*(n+i+1)) for i,c in enumerate(p)]
    e0=1-z0*z0
    A=ev(G,e0)/2
    Ge=G[1:]
    # int_{z0}^1 Ge(1-z^2) dz
    q=[Fr(0)]; w=[Fr(1),Fr(0),Fr(-1)]; pw=[Fr(1)]
    for c in Ge:
        q=[ (q[i] if i<len(q) else 0)+(c*pw[i] if i<len(pw) else 0) for i in range(max(len(q),len(pw)))]
        pw=mul(pw,w)
    Q=[Fr(0)]+[c/(i+1) for i,c in enumerate(q)]
    B=ev(Q,Fr(1))-ev(Q,z0)
    return A,B
NM=13
AB=[M(n) for n in range(NM+1)]
Mv=[a*log39+b for a,b in AB]
c=[Fr(s) for s in "3593.92733718761 5431.46429291511 3420.6675650193 1149.1163208075 217.17174525573 21.89317093303 0.9197592690185".split()]
# tail*(4+x) = sum c_j y^j ((1-y)/4)^(6-j)
a=[Fr(0)]*7
for j in range(7):
    for i in range(7-j):
        a[j+i]+=c[j]*comb(6-j,i)*(-1)**i/Fr(4)**(6-j)
for n in range(NM+1): print(n,float(Mv[n]), float(a[n]-Mv[n]) if n<7 else None)
for k in range(0,21):
    y=Fr(k,20)
    I=sum(Mv[n]*y**n for n in range(NM+1))
    T=sum(a[n]*y**n for n in range(7))
    print(float(y),float((T-I)/I))
print('----')
mp=(2*139.57018+134.9766)/3
print("xmax", (1800/mp)**2)
for k in range(800,1001,5):
    y=Fr(k,1000)
    I=sum(Mv[n]*y**n for n in range(NM+1))
    T=sum(a[n]*y**n for n in range(7))
    print(float(y),float(4*y/(1-y)) if y<1 else None,float((T-I)/I))
