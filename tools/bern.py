exec(open('/tmp/tail.py').read().split("for n in range(NM+1): print")[0])
import math
N=12
def rd(x,up,d=16):
    v=x*10**d
    f=v.numerator//v.denominator
    if up: f+=1
    return Fr(f,10**d)
lo=[rd(Mv[n],False) for n in range(N+1)]; hi=[rd(Mv[n],True) for n in range(N+1)]
def up(k): # (1+k) sum lo y^n - T
    return [ (1+k)*lo[n]-(a[n] if n<7 else 0) for n in range(N)]
def dn(k):
    p=[ (a[n] if n<7 else 0)-(1-k)*hi[n] for n in range(N)]
    return p+[-(1-k)*hi[N]*Fr(10,9)]
def bern(p,A,B):
    n=len(p)-1
    # y = A + (B-A) s ; coefficients in s
    h=B-A
    q=[Fr(0)]*(n+1)
    for k,c in enumerate(p):
        for i in range(k+1):
            q[i]+=c*comb(k,i)*A**(k-i)*h**i
    b=[]
    for k in range(n+1):
        b.append(sum(Fr(comb(k,i),comb(n,i))*q[i] for i in range(k+1)))
    return b
def sub(p,A,B,depth=0):
    b=bern(p,A,B)
    if all(x>=0 for x in b): return [(A,B)]
    if ev(p,(A+B)/2)<0 or depth>12: raise Exception((float(A),float(B),depth))
    M_=(A+B)/2
    return sub(p,A,M_,depth+1)+sub(p,M_,B,depth+1)
if __name__=="__main__":
    k=Fr(26,10**11)
    for nm,p in (("up",up(k)),("dn",dn(k))):
        print(nm,[(float(x),float(y)) for x,y in sub(p,Fr(0),Fr(99,100))])
    k=Fr(34,10**11)
    for nm,p in (("up",up(k)),("dn",dn(k))):
        print(nm,[(float(x),float(y)) for x,y in sub(p,Fr(0),Fr(1))])
